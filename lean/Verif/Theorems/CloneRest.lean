import Verif.Theorems.CloneCounts
import Verif.Theorems.Semigroup

/-! # What the semigroups, the maps, `Validated` and the error traits clone (C92) -/

namespace Rustica
open Act (ret mapList foldList)
open Spec
namespace Clones
variable {σ A B C D E G K L V W : Type}

/-! ## Semigroups -/

/-- The containers that combine what they hold clone what it clones. -/
theorem c92_combine_inner [RClone σ A] [RSemigroupC σ A] [RSemigroup A] (hA : CombineClones σ A) [RClone σ B]
    [RSemigroupC σ B] [RSemigroup B] (hB : CombineClones σ B) :
    CombineClones σ (Option A) ∧ CombineClones σ (A × B) ∧ CombineClones σ (RId A) := by
  refine ⟨⟨fun x y => ?_, fun x y => ?_⟩, ⟨fun x y => ?_, fun x y => ?_⟩, ⟨fun x y => ?_, fun x y => ?_⟩⟩
  · cases x <;> cases y <;> simp [combineOwnedC, combineOwned, hA.owned]
  · cases x <;> cases y <;> simp [combineC, combine, hA.borrowed, clone]
  · simp [combineOwnedC, combineOwned, hA.owned, hB.owned]
  · simp [combineC, combine, hA.borrowed, hB.borrowed, clone]
  · simp [combineOwnedC, combineOwned, hA.owned]
  · simp [combineC, combine, hA.borrowed, clone]
/-- An optional vector. -/
example : letI : RClone Nat String := counting
    CombineClones Nat (Option (List String)) :=
  letI : RClone Nat String := counting
  (c92_combine_inner (c92_combine (A := String) (E := String)).1 (c92_combine (A := String) (E := String)).1).1

/-- `Writer` combines the logs and then the values. -/
theorem c92_combine_writer [RClone σ W] [RSemigroupC σ W] [RMonoid W] (hW : CombineClones σ W) [RClone σ A]
    [RSemigroupC σ A] [RMonoid A] (hA : CombineClones σ A) : CombineClones σ (Writer W A) := by
  refine ⟨fun x y => ?_, fun x y => ?_⟩
  · simp [combineOwnedC, combineOwned, hA.owned, hW.owned]
  · simp [combineC, combine, hA.borrowed, hW.borrowed, clone]
/-- Two vectors. -/
example : letI : RClone Nat String := counting
    CombineClones Nat (Writer (List String) (List String)) :=
  letI : RClone Nat String := counting
  c92_combine_writer (c92_combine (A := String) (E := String)).1 (c92_combine (A := String) (E := String)).1

/-- `combine_owned` of sums and products does not clone; `combine` clones both operands. -/
theorem c92_sum [RClone σ A] [Add A] [Mul A] (x y : Sum A) (p q : Product A) :
    combineOwnedC x y = (ret (combineOwned x y) : Act σ (Sum A)) ∧
    combineC x y = ((clone x.val).seq fun a => (clone y.val).seq fun b => ret (combine ⟨a⟩ ⟨b⟩) : Act σ (Sum A)) ∧
    combineOwnedC p q = (ret (combineOwned p q) : Act σ (Product A)) ∧
    combineC p q = ((clone p.val).seq fun a => (clone q.val).seq fun b => ret (combine ⟨a⟩ ⟨b⟩) : Act σ (Product A)) :=
  ⟨rfl, rfl, rfl, rfl⟩

/-- `combine_all`, `combine_values` clone nothing. -/
theorem c92_combine_all [RClone σ A] [RSemigroupC σ A] [RSemigroup A] (h : CombineClones σ A) (x : A) (xs : List A) :
    combineAllC x xs = (ret (combineAllFrom x xs) : Act σ A) := by
  unfold combineAllC combineAllFrom
  simp only [h.owned]
  exact Act.foldList_pure _ _ _
example : letI : RClone Unit String := panicking
    combineAllC ["a"] [["b"], ["c", "d"]] = (ret ["a", "b", "c", "d"] : Act Unit _) :=
  letI : RClone Unit String := panicking
  c92_combine_all (c92_combine (A := String) (E := String)).1 _ _

/-- `step` applied `n` times. -/
def times {X : Type} (step : X → X) : Nat → X → X
  | 0, x => x
  | n + 1, x => times step n (step x)
theorem foldl_times {X Y : Type} (step : X → X) : ∀ (ys : List Y) (x : X),
    ys.foldl (fun acc _ => step acc) x = times step ys.length x
  | [], _ => rfl
  | _ :: ys, x => foldl_times step ys (step x)
theorem loopFrom1_times {X : Type} (n : Nat) (step : X → X) (x : X) : loopFrom1 (n + 1) step x = times step n x := by
  rw [loopFrom1, foldl_times, List.length_range, Nat.add_sub_cancel]

/-- `combine_n` of a vector of `l` elements clones `l * (1 + 2 + … + n)`; `combine_n_owned` clones `l * (2ⁿ⁻¹ - 1)`. -/
theorem c92_combine_n [RClone Nat A] (h : CountsClones A) (x : List A) (n : Nat) :
    Spec.Clones (combineNC x (n + 1)) (combineN x (n + 1)) (x.length * (List.range (n + 2)).sum) ∧
    Spec.Clones (combineNOwnedC x (n + 1)) (combineNOwned x (n + 1)) (x.length * (2 ^ n - 1)) ∧
    Spec.Clones (combineNC x 0) (combineN x 0) x.length ∧ Spec.Clones (combineNOwnedC x 0) (combineNOwned x 0) 0 := by
  refine ⟨?_, ?_, Clones.list h x, Clones.ret' _⟩
  · have key : ∀ (n : Nat) (acc : List A), Spec.Clones (Act.repeatN (fun acc => combineC acc x) n acc)
        (times (fun acc => combine acc x) n acc) (n * acc.length + x.length * (List.range (n + 1)).sum) := by
      intro n
      induction n with
      | zero => intro acc; exact Clones.of_eq (Clones.ret' _) rfl (by simp)
      | succ n ih =>
        intro acc
        have e : (combineC acc x : Act Nat (List A)) = clone (combine acc x) := (c92_combine (E := A)).1.borrowed acc x
        rw [Act.repeatN, times, e]
        refine Clones.seq' (Clones.list h (combine acc x)) (ih _) ?_
        have l : (combine acc x : List A).length = acc.length + x.length := List.length_append
        rw [l, List.range_succ (n := n + 1), List.sum_append, Nat.mul_add, Nat.mul_add, Nat.succ_mul, List.sum_singleton,
          Nat.mul_succ, Nat.mul_comm x.length n]
        omega
    rw [combineNC, combineN, if_neg (Nat.succ_ne_zero n), if_neg (Nat.succ_ne_zero n), loopFrom1_times]
    refine Clones.seq' (Clones.list h x) (key n x) ?_
    rw [List.range_succ (n := n + 1), List.sum_append, Nat.mul_add, List.sum_singleton, Nat.mul_succ,
      Nat.mul_comm x.length n]
    omega
  · have key : ∀ (n : Nat) (acc : List A), Spec.Clones
        (Act.repeatN (fun acc => (clone acc).seq fun acc' => combineOwnedC acc' acc) n acc)
        (times (fun acc => combineOwned acc acc) n acc) (acc.length * (2 ^ n - 1)) := by
      intro n
      induction n with
      | zero => intro acc; exact Clones.of_eq (Clones.ret' _) rfl (by simp)
      | succ n ih =>
        intro acc
        rw [Act.repeatN, times]
        refine Clones.seq' (Clones.seq' (Clones.list h acc) (Clones.ret' _) rfl) (ih _) ?_
        have l : (acc ++ acc).length = acc.length + acc.length := List.length_append
        have p : 0 < 2 ^ n := Nat.two_pow_pos n
        rw [l, Nat.pow_succ, Nat.mul_sub, Nat.mul_sub,
          Nat.add_mul, ← Nat.mul_assoc]
        have : acc.length ≤ acc.length * 2 ^ n := Nat.le_mul_of_pos_right _ p
        omega
    rw [combineNOwnedC, combineNOwned, if_neg (Nat.succ_ne_zero n), if_neg (Nat.succ_ne_zero n), loopFrom1_times]
    exact key n x
/-- Four copies of two elements: `combine_n` clones 20 elements, `combine_n_owned` clones 14. -/
example : letI : RClone Nat Nat := counting
    (combineNC [1, 2] 4 0).2 = 20 ∧ (combineNOwnedC [1, 2] 4 0).2 = 14 := ⟨rfl, rfl⟩

/-! ## Maps -/

theorem get_other [DecidableEq K] (m : AMap K V) {k j : K} (v : V) (h : j ≠ k) : (m.insert k v).get j = m.get j := by
  rw [AMap.get_insert, if_neg (Ne.symm h)]

theorem countP_insert [DecidableEq K] (m : AMap K V) (k : K) (v : V) (es : List (K × V))
    (h : k ∉ es.map Prod.fst) :
    (es.countP fun e => ((m.insert k v).get e.1).isSome) = es.countP fun e => (m.get e.1).isSome := by
  refine List.countP_congr fun e he => ?_
  rw [get_other]
  rintro rfl
  exact h (List.mem_map_of_mem he)

/-- `combine_owned` of two maps clones the old value of every common key. -/
theorem c92_map_owned [DecidableEq K] [RClone Nat K] [RClone Nat V] [RSemigroupC Nat V] [RSemigroup V]
    (hV : CountsClones V) (h : CombineClones Nat V) (m other : AMap K V) (order : List (K × V))
    (ho : other.Visits order) :
    Spec.Clones (m.combineOwnedInC order) (m.combineOwnedIn order)
      (other.entries.countP fun e => (m.get e.1).isSome) := by
  have hn : (order.map Prod.fst).Nodup := (ho.map Prod.fst).nodup_iff.2 other.nodup
  rw [← ho.countP_eq]
  clear ho
  induction order generalizing m with
  | nil => exact Clones.ret' _
  | cons e es ih =>
    rw [List.map_cons, List.nodup_cons] at hn
    rw [AMap.combineOwnedInC, foldList, List.countP_cons]
    have step : Spec.Clones (m.ownedStepC e) (m.ownedStep e) (if (m.get e.1).isSome then 1 else 0) := by
      unfold AMap.ownedStepC AMap.ownedStep
      rcases m.get e.1 with _ | old
      · exact Clones.ret' _
      · refine Clones.seq' (k := 0) (fun n => hV old n) ?_ rfl
        rw [h.owned]
        exact Clones.ret' _
    refine Clones.seq' step (ih (m.ownedStep e) hn.2) ?_
    have : (es.countP fun e' => ((m.ownedStep e).get e'.1).isSome) = es.countP fun e => (m.get e.1).isSome := by
      unfold AMap.ownedStep
      rcases m.get e.1 with _ | old <;> exact countP_insert _ _ _ _ hn.1
    rw [this]; omega
/-- One common key. -/
example : letI : RClone Nat Nat := counting; letI : RClone Nat String := counting
    (AMap.combineOwnedInC (⟨[(1, First.mk (some "a")), (2, ⟨none⟩)], by decide⟩ : AMap Nat (First String))
      [(3, ⟨some "c"⟩), (1, ⟨some "d"⟩)] 0).2 = 1 := rfl

theorem entries_insert [DecidableEq K] (m : AMap K V) (k : K) (v : V) (h : k ∉ m.entries.map Prod.fst) :
    (m.insert k v).entries = m.entries ++ [(k, v)] := by
  unfold AMap.insert
  rw [dif_pos ((AMap.look_none_iff _ _).2 h)]

theorem map_clone [DecidableEq K] [RClone Nat K] [RClone Nat V] (hK : CountsClones K) (hV : CountsClones V)
    (m : AMap K V) : Spec.Clones m.cloneC m (2 * m.entries.length) := by
  have key : ∀ (es : List (K × V)) (acc : AMap K V), ((acc.entries ++ es).map Prod.fst).Nodup →
      (es.foldl (fun acc e => acc.insert e.1 e.2) acc).entries = acc.entries ++ es := by
    intro es
    induction es with
    | nil => intro acc _; simp
    | cons e es ih =>
      intro acc hn
      have h1 : e.1 ∉ acc.entries.map Prod.fst := by
        rw [List.map_append, List.nodup_append] at hn
        exact fun hm => hn.2.2 _ hm _ (by simp) rfl
      have h2 := entries_insert acc e.1 e.2 h1
      rw [List.foldl_cons, ih _ (by rw [h2]; simpa using hn), h2]
      simp
  have hc := Clones.foldConst (k := 2) (g := fun (acc : AMap K V) (e : K × V) => acc.insert e.1 e.2)
    (f := fun acc e => (clone e.1).seq fun _ => (clone e.2).seq fun v => ret (acc.insert e.1 v))
    (fun acc e => Clones.args2 hK hV (fun _ v => acc.insert e.1 v) e.1 e.2) m.entries .new rfl
  refine Clones.of_eq hc ?_ (Nat.mul_comm _ _)
  have := key m.entries .new (by simpa [AMap.new] using m.nodup)
  rcases m with ⟨es, hn⟩
  generalize List.foldl (fun (acc : AMap K V) (e : K × V) => acc.insert e.1 e.2) .new es = r at this
  rcases r with ⟨rs, hr⟩
  simp only [AMap.new, List.nil_append] at this
  subst this
  rfl

/-- `combine` of two maps clones both maps, keys and values, and the merged value of every common key on top. -/
theorem c92_map_borrowed [DecidableEq K] [RClone Nat K] [RClone Nat V] [RSemigroupC Nat V] [RSemigroup V]
    (hK : CountsClones K) (hV : CountsClones V) (h : CombineClones Nat V) (m other : AMap K V) (order : List (K × V))
    (ho : other.Visits order) :
    Spec.Clones (m.combineInC order) (m.combineIn order)
      (2 * m.entries.length + (2 * other.entries.length + other.entries.countP fun e => (m.get e.1).isSome)) := by
  have hn : (order.map Prod.fst).Nodup := (ho.map Prod.fst).nodup_iff.2 other.nodup
  rw [← ho.countP_eq, ← ho.length_eq]
  refine Clones.seq' (map_clone hK hV m) (?_ : Spec.Clones (foldList AMap.entryStepC order m) _ _) rfl
  clear ho
  induction order generalizing m with
  | nil => exact Clones.ret' _
  | cons e es ih =>
    rw [List.map_cons, List.nodup_cons] at hn
    rw [foldList, List.countP_cons]
    have step : Spec.Clones (m.entryStepC e) (m.entryStep e) (2 + if (m.get e.1).isSome then 1 else 0) := by
      unfold AMap.entryStepC AMap.entryStep
      rcases m.get e.1 with _ | old
      · exact Clones.args2 hK hV (fun _ v => m.insert e.1 v) e.1 e.2
      · show Spec.Clones ((clone e.1).seq fun _ => (combineC old e.2).seq fun v => (clone e.2).seq fun _ =>
          ret (m.insert e.1 v)) (m.insert e.1 (combine old e.2)) 3
        rw [h.borrowed]
        exact Clones.seq' (f := fun _ => (clone (combine old e.2)).seq fun v => (clone e.2).seq fun _ =>
          ret (m.insert e.1 v)) (fun n => hK e.1 n) (Clones.args2 hV hV (fun v _ => m.insert e.1 v) _ e.2) rfl
    refine Clones.seq' step (ih (m.entryStep e) hn.2) ?_
    have : (es.countP fun e' => ((m.entryStep e).get e'.1).isSome) = es.countP fun e => (m.get e.1).isSome := by
      unfold AMap.entryStep
      rcases m.get e.1 with _ | old <;> exact countP_insert _ _ _ _ hn.1
    rw [this, List.length_cons]; omega
/-- Two entries each and one common key: nine clones. -/
example : letI : RClone Nat Nat := counting; letI : RClone Nat (Last String) := counting
    letI : RSemigroupC Nat (Last String) := ⟨fun x y => clone (combine x y), fun x y => ret (combineOwned x y)⟩
    (AMap.combineInC (⟨[(1, Last.mk (some "a")), (2, ⟨none⟩)], by decide⟩ : AMap Nat (Last String))
      [(3, ⟨some "c"⟩), (1, ⟨some "d"⟩)] 0).2 = 9 := rfl

/-! ## `Validated` -/

/-- The methods that take a `Validated` do not clone. -/
theorem c92_validated_owned [RClone σ E] [RClone σ A] (v w : Validated E A) (f : E → Act σ G) (r : Except E A)
    (o : Option A) (e : E) (values : List (Validated E A)) (g : List A → Act σ B) :
    v.fmapInvalidOwnedC f = v.fmapInvalidE f ∧
    (∀ u, Validated.combineErrorsOwned v w = some u → v.combineErrorsOwnedC w = (ret u : Act σ _)) ∧
    Validated.fromResultOwnedC r = (ret (resultToValidated r) : Act σ _) ∧
    (∀ r, validatedToResult v = some r → v.toResultOwnedC = (ret r : Act σ _)) ∧
    Validated.fromOptionOwnedC o e = (ret (Validated.fromOption o e) : Act σ _) ∧
    v.intoValueC = (ret v.intoValue : Act σ _) ∧
    v.intoErrorPayloadC = (ret v.intoErrorPayload : Act σ _) ∧
    Validated.sequenceOwnedC values g = Validated.sequenceE values g := by
  refine ⟨rfl, fun u hu => ?_, ?_, fun r hr => ?_, ?_, ?_, ?_, ?_⟩
  · cases v <;> cases w <;> cases hu <;> rfl
  · cases r <;> rfl
  · rcases v with a | _ | ⟨e, es⟩ <;> cases hr <;> rfl
  · cases o <;> rfl
  · cases v <;> rfl
  · cases v <;> rfl
  · unfold Validated.sequenceOwnedC Validated.sequenceE
    split
    · rfl
    · split
      · rfl
      · refine congrArg (fun h => ret (Validated.Invalid (List.foldl h [] values))) (funext fun acc => funext fun v => ?_)
        rcases v with a | _ | ⟨e, es⟩ <;> simp [Validated.addErrors, Validated.extendCloned]
/-- `Valid` and `Invalid` have errors to combine. -/
example : Validated.combineErrorsOwned (.Invalid [1] : Validated Nat Nat) (.Invalid [2, 3]) = some (.Invalid [1, 2, 3]) ∧
    validatedToResult (.Invalid [1, 2] : Validated Nat Nat) = some (.error 1) := ⟨rfl, rfl⟩

/-- The methods that borrow a `Validated` clone what they return; `to_result` also clones the errors it drops. -/
theorem c92_validated_borrowed [RClone σ E] [RClone σ A] [RClone σ G] (v w : Validated E A) (f : E → Act σ G)
    (r : Except E A) (o : Option A) (d : A) (e : E) (es : List E) (values : List (Validated E A))
    (g : List A → Act σ B) :
    v.errorsC = (clone v.errors : Act σ _) ∧
    (Validated.Valid d : Validated E A).fmapInvalidC f = ((clone d).seq fun d => ret (.Valid d) : Act σ _) ∧
    (Validated.Invalid es : Validated E A).fmapInvalidC f = (Validated.Invalid es : Validated E A).fmapInvalidE f ∧
    (∀ u, Validated.combineErrors v w = some u → v.combineErrorsC w = (clone u : Act σ _)) ∧
    Validated.fromResultC r = (clone (resultToValidated r) : Act σ _) ∧
    Validated.fromOptionC o e = (clone (Validated.fromOption o e) : Act σ _) ∧
    v.unwrapOrC d = (clone (v.unwrapOr d) : Act σ _) ∧
    v.toOptionC = (clone v.toOption : Act σ _) ∧
    Validated.sequenceC values g = ((clone (Validated.sequence values id)).seq (fmapE g) : Act σ _) ∧
    (Validated.Valid d : Validated E A).toResultC = (clone (.ok d : Except E A) : Act σ _) ∧
    (Validated.Invalid (e :: es) : Validated E A).toResultC =
      ((clone e).seq fun e' => (clone es).seq fun _ => ret (.error e') : Act σ (Except E A)) := by
  have ext : ∀ buf es : List E, Validated.extendClonedC buf es =
      ((mapList clone es).seq fun es => ret (buf ++ es) : Act σ (List E)) := by
    intro buf es
    cases es <;> simp [Validated.extendClonedC, mapList]
  refine ⟨rfl, rfl, rfl, fun u hu => ?_, ?_, ?_, ?_, ?_, ?_, ?_, ?_⟩
  · cases v <;> cases w <;> cases hu
    · rfl
    · rfl
    · rename_i e1 e2
      simp only [Validated.combineErrorsC, ext, clone, Act.seq_assoc, Act.ret_seq, List.nil_append]
      have : Validated.extendCloned (Validated.extendCloned [] e1) e2 = e1 ++ e2 := by
        cases e1 <;> cases e2 <;> simp [Validated.extendCloned]
      rw [this, Act.mapList_append]
      simp [Act.seq_assoc]
  · cases r <;> simp [Validated.fromResultC, Validated.fromResultOwnedC, resultToValidated, Validated.invalid, clone,
      mapList, Act.seq_assoc]
  · cases o <;> simp [Validated.fromOptionC, Validated.fromOption, clone, mapList, Act.seq_assoc]
  · cases v <;> rfl
  · cases v <;> rfl
  · have valid : ∀ h : Validated E A → Act σ (Option A), (∀ x, h (.Valid x) = (clone x).seq fun x' => ret (some x')) →
        (∀ es, h (.Invalid es) = ret none) →
        Act.filterMapList h values = mapList clone (Validated.validOnly values) := by
      intro h h1 h2
      clear v w
      induction values with
      | nil => rfl
      | cons v vs ih =>
        rw [Act.filterMapList, ih]
        cases v <;> simp [h1, h2, Validated.validOnly, mapList, Act.seq_assoc]
    have invalid : ∀ h : List E → Validated E A → Act σ (List E), (∀ acc a, h acc (.Valid a) = ret acc) →
        (∀ acc es, h acc (.Invalid es) = Validated.extendClonedC acc es) → ∀ buf : List E, foldList h values buf =
        ((mapList clone (values.flatMap Validated.errors)).seq fun es => ret (buf ++ es) : Act σ (List E)) := by
      intro h h1 h2
      clear v w valid
      induction values with
      | nil => intro buf; simp [foldList, mapList]
      | cons v vs ih =>
        intro buf
        rw [foldList, List.flatMap_cons, Act.mapList_append]
        cases v with
        | Valid a => simp [ih, h1, Validated.errors, Validated.errorSlice, mapList]
        | Invalid es => simp [ih, h2, ext, Validated.errors, Validated.errorSlice, Act.seq_assoc]
    have pure : ∀ h : List E → Validated E A → List E, (∀ acc a, h acc (.Valid a) = acc) →
        (∀ acc es, h acc (.Invalid es) = Validated.extendCloned acc es) → ∀ buf : List E,
        values.foldl h buf = buf ++ values.flatMap Validated.errors := by
      intro h h1 h2
      clear v w valid invalid
      induction values with
      | nil => intro buf; simp
      | cons v vs ih =>
        intro buf
        rw [List.foldl_cons, ih]
        rcases v with a | _ | ⟨e, es⟩ <;>
          simp [h1, h2, Validated.errors, Validated.errorSlice, Validated.extendCloned]
    unfold Validated.sequenceC Validated.sequence
    rw [valid _ (fun _ => rfl) fun _ => rfl, invalid _ (fun _ _ => rfl) fun _ _ => rfl,
      pure _ (fun _ _ => rfl) fun _ _ => rfl]
    split
    · simp [clone, mapList, fmapE]
    · split
      · simp [clone, fmapE, Act.seq_assoc]
      · simp [clone, fmapE, Act.seq_assoc]
  · simp [Validated.toResultC, Validated.toResultOwnedC, clone, Act.seq_assoc]
  · simp [Validated.toResultC, Validated.toResultOwnedC, clone, mapList, Act.seq_assoc]
/-- Three errors are cloned to return one. -/
example : letI : RClone Nat String := counting; letI : RClone Nat Nat := counting
    (Validated.Invalid ["a", "b", "c"] : Validated String Nat).toResultC 0 = (.ok (.error "a"), 3) ∧
    Validated.combineErrors (.Invalid ["a"] : Validated String Nat) (.Valid 1) = some (.Invalid ["a"]) := ⟨rfl, rfl⟩

/-! ## `MonadError` and `ErrorMapper` -/

/-- The owned methods do not clone; the others clone the value they return. -/
theorem c92_monad_error [RClone σ E] [RClone σ A] (f : E → Act σ (Except E A)) (g : E → Act σ G)
    (h : Unit → Act σ (Option A)) (v : A) (e : E) :
    Res.catchOwnedC (.ok v) f = (ret (.ok v) : Act σ _) ∧ Res.catchC (.ok v) f = clone (.ok v : Except E A) ∧
    Res.catchOwnedC (.error e) f = f e ∧ Res.catchC (.error e) f = f e ∧
    Res.mapErrorToOwnedC (.ok v) g = (ret (.ok v) : Act σ _) ∧
    Res.mapErrorToC (.ok v) g = ((clone v).seq fun v => ret (.ok v) : Act σ _) ∧
    Res.mapErrorToOwnedC (.error e : Except E A) g = (g e).seq (fun g => ret (.error g)) ∧
    Res.mapErrorToC (.error e : Except E A) g = (g e).seq (fun g => ret (.error g)) ∧
    Opt.catchOwnedC (some v) h = (ret (some v) : Act σ _) ∧ Opt.catchC (some v) h = clone (some v) ∧
    Opt.catchOwnedC none h = h () ∧ Opt.catchC none h = h () :=
  ⟨rfl, rfl, rfl, rfl, rfl, rfl, rfl, rfl, rfl, rfl, rfl, rfl⟩

/-! ## `Writer::lift3` -/

/-- `lift3` clones the logs of the first two writers twice. -/
theorem c92_writer_lift3 [RClone Nat E] (hE : CountsClones E) [RClone Nat A] [RClone Nat B] [RClone Nat C]
    [RClone Nat D] (f : A → B → C → D) (a : Writer (List E) A) (b : Writer (List E) B) (c : Writer (List E) C) :
    Spec.Clones (lift3C (fun a b c => (ret (f a b c) : Act Nat D)) a b c) (RApplicative.lift3 f a b c)
      (2 * (a.log.length + b.log.length) + c.log.length) := by
  have e : ∀ x y : List E, (combineC x y : Act Nat (List E)) = clone (x ++ y) :=
    (c92_combine (A := E) (E := E)).1.borrowed
  show Spec.Clones ((combineC a.log b.log).seq fun ab => (combineC ab c.log).seq fun log =>
    (ret (f a.value b.value c.value)).seq fun d => ret (Writer.mk log d)) (Writer.mk (a.log ++ b.log ++ c.log)
      (f a.value b.value c.value)) _
  rw [e]
  refine Clones.seq' (Clones.list hE _) ?_ (k := a.log.length + b.log.length + c.log.length) ?_
  · show Spec.Clones ((combineC (a.log ++ b.log) c.log).seq _) _ _
    rw [e]
    refine Clones.seq' (Clones.list hE _) (Clones.ret' _) ?_
    simp; omega
  · simp; omega
/-- One entry each: five clones. -/
example : letI : RClone Nat String := counting; letI : RClone Nat Nat := counting
    (lift3C (fun a b c => (ret (a + b + c) : Act Nat Nat)) (⟨["a"], 1⟩ : Writer (List String) Nat) ⟨["b"], 2⟩ ⟨["c"], 3⟩
      0).2 = 5 := rfl

/-! ## When cloning has no effect -/

theorem plain_list [RClone σ A] (h : PlainClone σ A) (xs : List A) : (clone xs : Act σ (List A)) = ret xs := by
  have : (clone : A → Act σ A) = fun a => ret a := funext h
  show mapList clone xs = ret xs
  rw [this, Act.mapList_pure]
  simp

/-- With a `clone` that does nothing but return an equal value, the methods that clone too much are the methods that do
not clone. -/
theorem c92_plain [RClone σ (A → Act σ B)] [RClone σ A] [RClone σ B] [RClone σ C] [RClone σ D] [RClone σ E]
    (hA : PlainClone σ A) (hB : PlainClone σ B) (hC : PlainClone σ C) (hE : PlainClone σ E) (f : A → B → Act σ C)
    (g : A → B → C → Act σ D) (k : A → Act σ (Choice B)) (u : A → Act σ B) :
    (∀ (fs : List (A → Act σ B)) x, applyOwnedC fs x = applyOwnedE fs x) ∧
    (∀ a b : List _, lift2OwnedC f a b = lift2OwnedE f a b) ∧
    (∀ a b c : List _, lift3OwnedC g a b c = lift3OwnedE g a b c) ∧
    (∀ (fs : Choice (A → Act σ B)) x, applyOwnedC fs x = applyOwnedE fs x) ∧
    (∀ a b : Choice _, lift2OwnedC f a b = lift2OwnedE f a b) ∧
    (∀ a b c : Choice _, lift3OwnedC g a b c = lift3OwnedE g a b c) ∧
    (∀ c : Choice A, bindC c k = bindE c k ∧ bindOwnedC c k = bindOwnedE c k ∧ joinC k c = bindE c k ∧
      joinOwnedC k c = bindOwnedE c k) ∧
    (∀ x : Except E A, fmapOwnedC u x = fmapOwnedE u x) := by
  have hAs := plain_list hA
  have hBs := plain_list hB
  have hCs := plain_list hC
  refine ⟨fun fs x => ?_, fun a b => ?_, fun a b c => ?_, fun fs x => ?_, fun a b => ?_, fun a b c => ?_,
    fun c => ?_, fun x => ?_⟩
  · simp only [applyOwnedC, applyOwnedE, vecLoopE, hAs, Act.ret_seq]
  · simp only [lift2OwnedC, lift2OwnedE, vecLoopE, hBs, hA _, Act.ret_seq]
  · simp only [lift3OwnedC, lift3OwnedE, vecLoop3E, hBs, hCs, hA _, hB _, hC _, Act.ret_seq]
  · rw [(c92_choice_owned (C := A) (D := A)).1]
    have : (fs.values.map fun (f : A → Act σ B) a => (clone a).seq f) = fs.values := by
      simp only [hA _, Act.ret_seq]
      exact List.map_id' _
    rw [this]
  · rw [(c92_choice_owned (D := A)).2.1]
    simp only [hA _, hB _, Act.ret_seq]
  · rw [c92_choice_owned.2.2]
    simp only [hA _, hB _, hC _, Act.ret_seq]
  · have hc : ∀ c : Choice B, (clone c : Act σ (Choice B)) = ret c := fun c => by
      rw [choice_clone]
      show (clone c.values).seq _ = _
      rw [hBs, Act.ret_seq]
    have hk : ∀ a, (k a).seq clone = k a := fun a => by
      rw [show (clone : Choice B → Act σ (Choice B)) = ret from funext hc, Act.seq_ret]
    have e := c92_choice_bind c k
    simp only [hk, hA _, Act.ret_seq] at e
    refine ⟨e.1, ?_, e.2.1, e.2.2⟩
    rcases c with ⟨_ | ⟨v, vs⟩⟩
    · rfl
    · simp only [bindOwnedC, bindOwnedE, Choice.bindOwnedC']
      congr 1; funext c
      rcases c with ⟨_ | ⟨x, xs⟩⟩
      · rfl
      · show (clone x).seq (fun first => (clone xs).seq _) = _
        rw [hB x, Act.ret_seq, hBs, Act.ret_seq]
  · cases x <;> simp [fmapOwnedC, fmapOwnedE, hE _]
/-- A `clone` that does nothing else. -/
example : @PlainClone Nat String ⟨ret⟩ := fun _ => rfl

end Clones
end Rustica
