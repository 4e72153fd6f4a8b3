import Verif.Theorems.Access
import Verif.Theorems.Applicative
import Verif.Theorems.Monad
import Verif.Effect.IO
import Verif.Data.Validated

/-!
# Iterators and mutation (C65), `Evaluate` (C66), asynchronous maps of `Validated` (C67), derived trait methods (C68)
-/

namespace Rustica

/-! ## C65 -/

/-- Specification: the result of the `k`-th call of `next`. -/
def pull {S A : Type} (next : S → Option A × S) (s : S) : Nat → Option A
  | 0 => (next s).1
  | k + 1 => pull next (next s).2 k

section Iterators
variable {L R E A T : Type}

theorem pull_none (k : Nat) : pull OneShot.next (⟨none⟩ : OneShot A) k = none := by
  induction k with
  | zero => rfl
  | succ k ih => exact ih

theorem pull_oneShot (o : Option A) (k : Nat) : pull OneShot.next ⟨o⟩ k = o.toList[k]? := by
  cases k with
  | zero => cases o <;> rfl
  | succ k =>
    show pull OneShot.next ⟨none⟩ k = _
    rw [pull_none]
    cases o <;> simp

theorem pull_errors (es : List E) (k : Nat) : pull ErrorsIter.next (.Multi es) k = es[k]? := by
  induction k generalizing es with
  | zero => cases es <;> rfl
  | succ k ih =>
    cases es with
    | nil => exact (ih []).trans (by simp)
    | cons e es => exact (ih es).trans (by simp)

/-- C65: the iterators of `Either`, `Validated` and `Maybe` yield the elements of their side, once each and in order,
and then `None` for ever. -/
theorem c65_iterators (e : Either L R) (v : Validated E A) (m : Maybe T) (k : Nat) :
    pull OneShot.next e.intoIter k = (match e with | .Right r => [r] | .Left _ => [])[k]? ∧
    pull OneShot.next e.leftIter' k = (match e with | .Left l => [l] | .Right _ => [])[k]? ∧
    pull OneShot.next v.intoIter k = (match v with | .Valid a => [a] | .Invalid _ => [])[k]? ∧
    pull OneShot.next m.intoIter k = (match m with | .Just t => [t] | .Nothing => [])[k]? ∧
    pull ErrorsIter.next v.errorsIter k = (match v with | .Valid _ => [] | .Invalid es => es)[k]? := by
  refine ⟨?_, ?_, ?_, ?_, ?_⟩
  · cases e <;> exact pull_oneShot _ k
  · cases e <;> exact pull_oneShot _ k
  · cases v <;> exact pull_oneShot _ k
  · cases m <;> exact pull_oneShot _ k
  · cases v with
    | Invalid es => exact pull_errors es k
    | Valid a =>
      have h : ∀ k, pull ErrorsIter.next (.Empty : ErrorsIter E) k = none := by
        intro k
        induction k with
        | zero => rfl
        | succ k ih => exact ih
      exact (h k).trans (by simp)

/-- C65: assigning through the mutable iterators changes exactly the elements of that side. -/
theorem c65_mutation (e : Either L R) (v : Validated E A) (m : Maybe T) (f : R → R) (g : L → L) (h : A → A)
    (i : E → E) (j : T → T) (b : List E → List E) (k : Nat) :
    (pull OneShot.next (e.iterMutMap f).intoIter k = (pull OneShot.next e.intoIter k).map f ∧
      pull OneShot.next (e.iterMutMap f).leftIter' k = pull OneShot.next e.leftIter' k) ∧
    (pull OneShot.next (e.leftIterMutMap g).leftIter' k = (pull OneShot.next e.leftIter' k).map g ∧
      pull OneShot.next (e.leftIterMutMap g).intoIter k = pull OneShot.next e.intoIter k) ∧
    (pull OneShot.next (v.iterMutMap h).intoIter k = (pull OneShot.next v.intoIter k).map h ∧
      pull ErrorsIter.next (v.iterMutMap h).errorsIter k = pull ErrorsIter.next v.errorsIter k) ∧
    (pull ErrorsIter.next (v.iterErrorsMutMap i).errorsIter k = (pull ErrorsIter.next v.errorsIter k).map i ∧
      pull OneShot.next (v.iterErrorsMutMap i).intoIter k = pull OneShot.next v.intoIter k) ∧
    pull OneShot.next (m.iterMutMap j).intoIter k = (pull OneShot.next m.intoIter k).map j ∧
    v.errorBufferMut b = (match v with | .Valid a => .Valid a | .Invalid es => .Invalid (b es)) ∧
    (∀ l, e = .Left l → e.leftMut g = .ok (.Left (g l))) ∧
    ((∃ p, e.leftMut g = .error p) ↔ ∃ r, e = .Right r) := by
  refine ⟨⟨?_, ?_⟩, ⟨?_, ?_⟩, ⟨?_, ?_⟩, ⟨?_, ?_⟩, ?_, ?_, ?_, ?_⟩
  · cases e <;> simp [Either.iterMutMap, Either.intoIter, pull_oneShot] <;> (cases k <;> simp)
  · cases e <;> rfl
  · cases e <;> simp [Either.leftIterMutMap, Either.leftIter', pull_oneShot] <;> (cases k <;> simp)
  · cases e <;> rfl
  · cases v <;> simp [Validated.iterMutMap, Validated.intoIter, pull_oneShot] <;> (cases k <;> simp)
  · cases v <;> rfl
  · have := (c65_iterators e v m k).2.2.2.2
    have h2 := (c65_iterators e (v.iterErrorsMutMap i) m k).2.2.2.2
    cases v <;> simp_all [Validated.iterErrorsMutMap]
  · cases v <;> rfl
  · cases m <;> simp [Maybe.iterMutMap, Maybe.intoIter, pull_oneShot] <;> (cases k <;> simp)
  · cases v <;> rfl
  · rintro l rfl; rfl
  · cases e <;> simp [Either.leftMut]

theorem toMap_step {K : Type} [DecidableEq K] (f : T → K) (k : K) (xs : List T) (map : List (K × T))
    (hn : (map.map (·.1)).Nodup) :
    let step := fun (map : List (K × T)) value =>
      if map.any (fun p => p.1 = f value) then map else map ++ [(f value, value)]
    ((xs.foldl step map).find? (fun p => p.1 = k)).map (·.2) =
      ((map.find? (fun p => p.1 = k)).map (·.2)).or (xs.find? (fun t => f t = k)) ∧
    ((xs.foldl step map).map (·.1)).Nodup := by
  induction xs generalizing map with
  | nil => exact ⟨by simp, hn⟩
  | cons x xs ih =>
    intro step
    by_cases hx : map.any (fun p => p.1 = f x)
    · have hs : step map x = map := if_pos hx
      obtain ⟨h1, h2⟩ := ih map hn
      rw [List.foldl_cons, hs]
      refine ⟨h1.trans ?_, h2⟩
      by_cases hk : f x = k
      · obtain ⟨p, hp, he⟩ := List.any_eq_true.1 hx
        have hsome : (map.find? (fun p => p.1 = k)).isSome := by
          rw [List.find?_isSome]
          exact ⟨p, hp, by simpa [hk] using he⟩
        obtain ⟨q, hq⟩ := Option.isSome_iff_exists.1 hsome
        simp [hq]
      · simp [hk]
    · have hs : step map x = map ++ [(f x, x)] := if_neg hx
      have hn' : ((map ++ [(f x, x)]).map (·.1)).Nodup := by
        rw [List.map_append, List.nodup_append]
        refine ⟨hn, by simp, fun a ha b hb => ?_⟩
        simp only [List.map_cons, List.map_nil, List.mem_singleton] at hb
        rintro rfl
        obtain ⟨p, hp, he⟩ := List.mem_map.1 ha
        exact hx (List.any_eq_true.2 ⟨p, hp, by simp [he, hb]⟩)
      obtain ⟨h1, h2⟩ := ih _ hn'
      rw [List.foldl_cons, hs]
      refine ⟨h1.trans ?_, h2⟩
      rw [List.find?_append]
      by_cases hk : f x = k
      · cases hm : map.find? (fun p => p.1 = k) <;> simp [hk]
      · cases hm : map.find? (fun p => p.1 = k) <;> simp [hk]

/-- C65: `to_map_with_key` keeps, for every key, the first value with that key (and no key twice). -/
theorem c65_map_with_key {K : Type} [DecidableEq K] (c : Choice T) (f : T → K) :
    (∀ k, ((c.toMapWithKey f).find? (fun p => p.1 = k)).map (·.2) = c.values.find? (fun t => f t = k)) ∧
    ((c.toMapWithKey f).map (·.1)).Nodup :=
  ⟨fun k => by simpa [Choice.toMapWithKey] using (toMap_step f k c.values [] (by simp)).1,
    by
      cases h : c.values with
      | nil => simp [Choice.toMapWithKey, h]
      | cons x xs => simpa [Choice.toMapWithKey, h] using (toMap_step f (f x) c.values [] (by simp)).2⟩

example : (Choice.mk [3, 4, 5, 6]).toMapWithKey (· % 2) = [(1, 3), (0, 4)] := by decide
example : pull ErrorsIter.next (Validated.Invalid [4, 5] : Validated Nat Nat).errorsIter 1 = some 5 := rfl

end Iterators

/-! ## C66 -/

section Evaluate
variable {σ T U O Y S' : Type}
open EvaluateExt REvaluate

/-- C66: a thunk computes nothing when built; each `evaluate` runs its function once, twice when called twice (there is no
memoisation), also when the function panics. -/
theorem c66_thunk (f : Act σ T) (w : σ) :
    evaluate (Thunk'.new f) w = f w ∧ evaluateOwned (Thunk'.new f) w = f w ∧
    ((evaluate (Thunk'.new f)).catchUnwind.seq fun a => (evaluate (Thunk'.new f)).catchUnwind.seq fun b => Act.ret (a, b)) w =
      (.ok ((f w).1, (f (f w).2).1), (f (f w).2).2) := ⟨rfl, rfl, rfl⟩

/-- C66: the extension methods evaluate each operand exactly once, left before right, and then call the closure once;
`filter_evaluate` returns the value exactly when the predicate holds. -/
theorem c66_ext {X S : Type} [REvaluate σ X S] [REvaluate σ Y S'] (x : X) (y : Y) (f : S → Act σ U)
    (g : S → Act σ Y) (h : S → S' → Act σ O) (p : S → Act σ Bool) (w w1 : σ) (a : S) (hx : evaluate x w = (.ok a, w1)) :
    fmapEvaluate x f w = f a w1 ∧ mapEvaluate x f w = f a w1 ∧
    (∀ z w2, g a w1 = (.ok z, w2) → bindEvaluate x g w = evaluate z w2) ∧
    andThenEvaluate x g w = bindEvaluate x g w ∧
    (∀ b w2, evaluate y w1 = (.ok b, w2) → combineEvaluate x y h w = h a b w2) ∧
    (∀ b w2, p a w1 = (.ok b, w2) → filterEvaluate x p w = (.ok (if b = true then some a else none), w2)) := by
  refine ⟨?_, ?_, fun z w2 hg => ?_, rfl, fun b w2 hy => ?_, fun b w2 hp => ?_⟩
  · simp only [fmapEvaluate, Act.seq, hx]
  · simp only [mapEvaluate, Act.seq, hx]
  · simp only [bindEvaluate, Act.seq, hx, hg]
  · simp only [combineEvaluate, Act.seq, hx, hy]
  · simp only [filterEvaluate, Act.seq, hx, hp, Act.ret]

/-- Meets the hypothesis: a counting thunk. -/
example : (evaluate (Thunk'.new fun w : Nat => (.ok w, w + 1)) 5 : Except Panic Nat × Nat) = (.ok 5, 6) := rfl

/-- C66: a panic ends the call where it happens.  If the operand panics, no closure and no second operand runs; if the
second operand, the continuation or the predicate panics, nothing runs after it. -/
theorem c66_panics {X S : Type} [REvaluate σ X S] [REvaluate σ Y S'] (x : X) (y : Y) (f : S → Act σ U)
    (g : S → Act σ Y) (h : S → S' → Act σ O) (q : S → Act σ Bool) (w w1 : σ) (p : Panic) :
    (evaluate x w = (.error p, w1) → fmapEvaluate x f w = (.error p, w1) ∧ mapEvaluate x f w = (.error p, w1) ∧
      bindEvaluate x g w = (.error p, w1) ∧ andThenEvaluate x g w = (.error p, w1) ∧
      combineEvaluate x y h w = (.error p, w1) ∧ filterEvaluate x q w = (.error p, w1)) ∧
    (∀ a w0, evaluate x w = (.ok a, w0) →
      (g a w0 = (.error p, w1) → bindEvaluate x g w = (.error p, w1)) ∧
      (evaluate y w0 = (.error p, w1) → combineEvaluate x y h w = (.error p, w1)) ∧
      (q a w0 = (.error p, w1) → filterEvaluate x q w = (.error p, w1))) := by
  refine ⟨fun hx => ?_, fun a w0 hx => ⟨fun hg => ?_, fun hy => ?_, fun hq => ?_⟩⟩
  · simp only [fmapEvaluate, mapEvaluate, bindEvaluate, andThenEvaluate, combineEvaluate, filterEvaluate, Act.seq, hx, and_self]
  · simp only [bindEvaluate, Act.seq, hx, hg]
  · simp only [combineEvaluate, Act.seq, hx, hy]
  · simp only [filterEvaluate, Act.seq, hx, hq]

/-- The first thunk counts, the second panics after counting: the closure is not called. -/
example : combineEvaluate (Thunk'.new fun w : Nat => (.ok w, w + 1)) (Thunk'.new fun w : Nat => ((.error .other : Except Panic Nat), w + 10))
    (fun a b w => (.ok (a + b), w + 100)) 5 = (.error .other, 16) := rfl

/-- C66: the owning methods do the same as the borrowing ones whenever `evaluate_owned` does; so they do on thunks. -/
theorem c66_owned {X S : Type} [REvaluate σ X S] [REvaluate σ Y S'] (hown : ∀ x : X, (evaluateOwned x : Act σ S) = evaluate x)
    (x : X) (y : Y) (f : S → Act σ U) (g : S → Act σ Y) (h : S → S' → Act σ O) (p : S → Act σ Bool) :
    fmapEvaluateOwned x f = fmapEvaluate x f ∧ mapEvaluateOwned x f = mapEvaluate x f ∧
    bindEvaluateOwned x g = bindEvaluate x g ∧ andThenEvaluateOwned x g = andThenEvaluate x g ∧
    combineEvaluateOwned x y h = combineEvaluate x y h ∧ filterEvaluateOwned x p = filterEvaluate x p := by
  refine ⟨rfl, ?_, rfl, ?_, rfl, ?_⟩
  · simp only [mapEvaluateOwned, mapEvaluate, hown]
  · simp only [andThenEvaluateOwned, andThenEvaluate, hown]
  · simp only [filterEvaluateOwned, filterEvaluate, hown]

/-- Thunks meet the hypothesis of `c66_owned`; a counting thunk is run once per evaluation. -/
example : (∀ x : Thunk' Nat Nat, (evaluateOwned x : Act Nat Nat) = evaluate x) ∧
    combineEvaluate (Thunk'.new fun w : Nat => (.ok w, w + 1)) (Thunk'.new fun w : Nat => (.ok (w * 10), w + 1))
      (fun a b => Act.ret (a, b)) 5 = (.ok (5, 60), 7) := ⟨fun _ => rfl, rfl⟩

end Evaluate

/-! ## C67 -/

section ValidatedAsync
variable {σ A B E G : Type}

theorem joinAll_settles (fs : List (Fut σ A)) (as : List A) (h : List.Forall₂ Fut.Settles fs as)
    (ss : List (List Bool)) : Fut.Settles (joinAll fs ss) as := by
  induction h generalizing ss with
  | nil => exact .ret []
  | cons hx _ ih => exact (hx.join (ih _) _).bind (.ret _)

/-- C67: if the asynchronous function settles (for every element, whatever the other tasks do) on the value of a
function `g`, then the asynchronous maps settle on what the synchronous map with `g` returns, for every interleaving;
in particular the errors keep their order. -/
theorem c67_settles (v : Validated E A) (f : A → Fut σ B) (g : A → B) (fe : E → Fut σ G) (ge : E → G)
    (fv : A → Fut σ (Validated E B)) (gv : A → Validated E B) (ss : List (List Bool))
    (h : ∀ a, Fut.Settles (f a) (g a)) (he : ∀ e, Fut.Settles (fe e) (ge e)) (hv : ∀ a, Fut.Settles (fv a) (gv a)) :
    Fut.Settles (v.fmapValidAsync f) (RFunctor.fmap g v) ∧
    Fut.Settles (v.fmapInvalidAsync ss fe) (v.fmapInvalid ge) ∧
    Fut.Settles (v.andThenAsync fv) (RMonad.bind v gv) := by
  cases v with
  | Valid a => exact ⟨(h a).bind (.ret _), .ret _, hv a⟩
  | Invalid es =>
    refine ⟨.ret _, ?_, .ret _⟩
    refine (joinAll_settles (es.map fe) (es.map ge) ?_ ss).bind (.ret _)
    induction es with
    | nil => exact .nil
    | cons e es ih => exact .cons (he e) ih

example : Fut.Settles ((Validated.Invalid [1, 2] : Validated Nat Nat).fmapInvalidAsync [[true]]
      fun e => (.step (fun log : List Nat => log ++ [e]) fun _ => .ret (e * 10))) (.Invalid [10, 20]) :=
  (c67_settles (Validated.Invalid [1, 2] : Validated Nat Nat) (fun a => .ret a) id _ (· * 10) (fun a => .ret (.Valid a))
    Validated.Valid [[true]] (fun a => .ret a) (fun _ => .step fun _ => .ret _) fun _ => .ret _).2.1

/-- C67, effects: on the other variant nothing runs at all; on a `Valid` the closure's future runs exactly once. -/
theorem c67_effects (es : List E) (a : A) (f : A → Fut σ B) (fe : E → Fut σ G) (fv : A → Fut σ (Validated E B))
    (ss : List (List Bool)) (w : σ) :
    ((Validated.Invalid es : Validated E A).fmapValidAsync f).run w = (.ok (.Invalid es), w) ∧
    ((Validated.Invalid es : Validated E A).andThenAsync fv).run w = (.ok (.Invalid es), w) ∧
    ((Validated.Valid a : Validated E A).fmapInvalidAsync ss fe).run w = (.ok (.Valid a), w) ∧
    ((Validated.Valid a : Validated E A).andThenAsync fv).run w = (fv a).run w ∧
    (((Validated.Valid a : Validated E A).fmapValidAsync f).run w).2 = ((f a).run w).2 := by
  refine ⟨rfl, rfl, rfl, rfl, ?_⟩
  show (((f a).bind fun r => Fut.ret (Validated.Valid r)).run w).2 = _
  generalize f a = x
  induction x generalizing w with
  | ret a => rfl
  | panic p => rfl
  | step upd k ih => exact ih w (upd w)

example : ((Validated.Invalid [1, 2, 3] : Validated Nat Nat).fmapInvalidAsync [[true, true], [true]]
    fun e => (.step (fun log : List Nat => log ++ [e]) fun _ => .ret (e * 10))).run [] =
    (.ok (.Invalid [10, 20, 30]), [3, 2, 1]) := rfl

end ValidatedAsync

/-! ## C68 -/

section Derived
variable {A B C E L W : Type}
open RAlternative RApplicative RMonad

/-- C68: `many` of the empty structure is empty; of a value it is the one-element collection of that value. -/
theorem c68_many [Inhabited L] [Inhabited E] (a : A) (xs : List A) :
    (many (emptyAlt : Option A) = emptyAlt ∧ many (some a) = some [a]) ∧
    (many (emptyAlt : Maybe A) = emptyAlt ∧ many (Maybe.Just a) = .Just [a]) ∧
    (many (emptyAlt : Either L A) = emptyAlt ∧ many (Either.Right a : Either L A) = .Right [a]) ∧
    (many (emptyAlt : Validated E A) = emptyAlt ∧ many (Validated.Valid a : Validated E A) = .Valid [a]) ∧
    (many (emptyAlt : List A) = emptyAlt ∧ (xs ≠ [] → many xs = [xs])) ∧
    (many (emptyAlt : Choice A) = emptyAlt ∧ many (Choice.new a xs) = ⟨[[a]]⟩) := by
  refine ⟨⟨rfl, rfl⟩, ⟨rfl, rfl⟩, ⟨rfl, rfl⟩, ⟨rfl, rfl⟩, ⟨rfl, ?_⟩, rfl, rfl⟩
  intro h
  cases xs with
  | nil => exact absurd rfl h
  | cons x xs => rfl

/-- C68: `try_bind` on any lawful monad: on `pure a` it gives what the function returns on `a`, and the default if the
function fails; with a function that never fails it is `bind`; a failing one maps everything to the default. -/
theorem c68_try_bind {F : Type → Type} [RMonad F] (hl : MonadLaws F) (m : F A) (a : A) (d : B)
    (f : A → Except E (F B)) (g : A → F B) (e : E) :
    (∀ r, f a = .ok r → tryBind (RPure.pure a) d f = r) ∧
    (∀ e, f a = .error e → tryBind (RPure.pure a) d f = RPure.pure d) ∧
    tryBind m d (fun x => (.ok (g x) : Except E (F B))) = RMonad.bind m g ∧
    tryBind m d (fun _ => (.error e : Except E (F B))) = RFunctor.fmap (fun _ => d) m := by
  refine ⟨fun r h => ?_, fun e h => ?_, rfl, (hl.fmap_eq _ _).symm⟩
  · rw [tryBind, hl.left_id, h]
  · rw [tryBind, hl.left_id, h]

example : tryBind (some 3) 0 (fun n => (.ok (some (n + 1)) : Except String (Option Nat))) = some 4 :=
  (c68_try_bind c25_option (some 3) 3 0 (fun n => .ok (some n)) (fun n => some (n + 1)) "").2.2.1

/-- C68: `filter_map` of the standard containers keeps exactly the images, in order. -/
theorem c68_filter_map [Inhabited E] (xs : List A) (o : Option A) (r : Except E A) (f : A → Option B) (b : B) :
    Vec.filterMap xs f = (xs.map f).flatMap Option.toList ∧
    (Opt.filterMap o f = some b ↔ ∃ a, o = some a ∧ f a = some b) ∧
    (Res.filterMap r f = .ok b ↔ ∃ a, r = .ok a ∧ f a = some b) ∧
    (∀ e, r = .error e → Res.filterMap r f = .error e) ∧
    (∀ a, r = .ok a → f a = none → Res.filterMap r f = .error default) := by
  refine ⟨?_, ?_, ?_, ?_, ?_⟩
  · induction xs with
    | nil => rfl
    | cons x xs ih =>
      simp only [Vec.filterMap] at ih ⊢
      cases h : f x <;> simp [h, ih]
  · cases o <;> simp [Opt.filterMap]
  · cases r with
    | error e => simp [Res.filterMap]
    | ok a => cases h : f a <;> simp [Res.filterMap, h]
  · rintro e rfl; rfl
  · rintro a rfl h; simp [Res.filterMap, h]

/-- C68: `ap2` is applicative application of a pure function to both arguments, in order, for every lawful applicative. -/
theorem c68_ap2 {F : Type → Type} [RApplicative F] (hl : ApplicativeLaws F) (f : A → B → C) (x : F A) (y : F B) :
    ap2 f x y = apply (apply (RPure.pure f) x) y := hl.lift2_eq f x y

example : ap2 (· + ·) (some 3) (some 4) = apply (apply (RPure.pure (· + ·)) (some 3)) (some 4) := c68_ap2 c24_option _ _ _

/-- C68: `is_empty_monoid` accepts exactly the identity element, and nothing else acts as an identity. -/
theorem c68_is_empty {M : Type} [RMonoid M] [BEq M] [LawfulBEq M] (hl : MonoidLaw M) (x : M) :
    (isEmptyMonoid x = true ↔ x = RMonoid.empty) ∧
    (isEmptyMonoid x = true ↔ ∀ y : M, combine x y = y) := by
  have h1 : isEmptyMonoid x = true ↔ x = RMonoid.empty := by simp [isEmptyMonoid]
  refine ⟨h1, h1.trans ⟨?_, fun h => ?_⟩⟩
  · rintro rfl y; exact (hl y).1
  · exact (hl x).2.symm.trans (h RMonoid.empty)

example : isEmptyMonoid "" = true ↔ ∀ y : String, combine "" y = y := (c68_is_empty c17_string "").2

/-- C68: the `PureExt` methods are `pure` of the evident values; `Id::then` returns its argument. -/
theorem c68_pure_ext {P : Type → Type} [RPure P] (hown : ∀ {T : Type} (t : T), (RPure.pureOwned t : P T) = RPure.pure t)
    (a : A) (b : B) (f : A → B → C) (i : RId A) (j : RId B) :
    (toPure a : P A) = RPure.pure a ∧ (toPureOwned a : P A) = RPure.pure a ∧
    (pairWith a b : P (A × B)) = RPure.pure (a, b) ∧ (liftOther a b : P B) = RPure.pure b ∧
    (combineWith a b f : P C) = RPure.pure (f a b) ∧ i.andThen j = j :=
  ⟨rfl, hown a, rfl, rfl, rfl, rfl⟩

example : (pairWith 3 true : Option (Nat × Bool)) = some (3, true) ∧
    tryBind (some 3) 0 (fun n => if n < 5 then Except.error "small" else .ok (some n)) = some 0 ∧
    many (Choice.new 1 [2, 3]) = ⟨[[1]]⟩ ∧ isEmptyMonoid (M := First Nat) ⟨some 3⟩ = false := ⟨rfl, rfl, rfl, rfl⟩

end Derived

end Rustica
