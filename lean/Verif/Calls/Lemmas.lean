import Verif.Spec.Calls

/-!
# Lemmas on sequences of calls
-/

namespace Rustica
open Act (ret mapList foldList filterMapList filterList)
variable {σ A B C D U : Type}

namespace Act

theorem seq_ok {m : Act σ A} {f : A → Act σ B} {w w' : σ} {a : A} (h : m w = (.ok a, w')) :
    m.seq f w = f a w' := by simp [seq, h]

theorem seq_error {m : Act σ A} {f : A → Act σ B} {w w' : σ} {p : Panic} (h : m w = (.error p, w')) :
    m.seq f w = (.error p, w') := by simp [seq, h]

theorem mapList_map (f : B → Act σ C) (h : A → B) (xs : List A) :
    mapList f (xs.map h) = mapList (fun a => f (h a)) xs := by
  induction xs with
  | nil => rfl
  | cons x xs ih => simp [mapList, ih]

theorem mapList_append (f : A → Act σ B) (xs ys : List A) :
    mapList f (xs ++ ys) = (mapList f xs).seq fun as => (mapList f ys).seq fun bs => ret (as ++ bs) := by
  induction xs with
  | nil => simp [mapList]
  | cons x xs ih => simp [mapList, ih, seq_assoc]

theorem mapList_length (f : A → Act σ B) (xs : List A) (w w' : σ) (bs : List B)
    (h : mapList f xs w = (.ok bs, w')) : bs.length = xs.length := by
  induction xs generalizing w bs with
  | nil => simp [mapList, ret] at h; simp [← h.1]
  | cons x xs ih =>
    simp only [mapList, seq] at h
    rcases hx : f x w with ⟨_ | b, w1⟩
    · rw [hx] at h; simp at h
    · rw [hx] at h
      rcases hy : mapList f xs w1 with ⟨_ | ys, w2⟩
      · simp only [hy] at h; simp at h
      · simp only [hy, ret, Prod.mk.injEq, Except.ok.injEq] at h
        rw [← h.1, List.length_cons, List.length_cons, ih _ _ (h.2 ▸ hy)]

theorem mapList_pure (f : A → B) (xs : List A) :
    mapList (fun a => (ret (f a) : Act σ B)) xs = ret (xs.map f) := by
  induction xs with
  | nil => rfl
  | cons x xs ih => simp [mapList, ih]

theorem foldList_flatMap (g : B → Act σ C) (h : A → List B) (step : List C → A → Act σ (List C))
    (hs : ∀ r a, step r a = (mapList g (h a)).seq fun cs => ret (r ++ cs)) (xs : List A) (r0 : List C) :
    foldList step xs r0 = (mapList g (xs.flatMap h)).seq fun cs => ret (r0 ++ cs) := by
  induction xs generalizing r0 with
  | nil => simp [foldList, mapList]
  | cons x xs ih => simp [foldList, hs, ih, mapList_append, seq_assoc]

theorem foldList_push (g : A → Act σ C) (xs : List A) (r0 : List C) :
    foldList (fun r a => (g a).seq fun c => ret (r ++ [c])) xs r0 =
      (mapList g xs).seq fun cs => ret (r0 ++ cs) := by
  have := foldList_flatMap g (fun a => [a]) (fun r a => (g a).seq fun c => ret (r ++ [c]))
    (by intro r a; simp [mapList, seq_assoc]) xs r0
  simpa using this

theorem mapList_flatten (g : A → Act σ (List B)) (k : C → Act σ B) (h : A → List C)
    (hg : ∀ a, g a = mapList k (h a)) (xs : List A) :
    ((mapList g xs).seq fun bss => ret bss.flatten) = mapList k (xs.flatMap h) := by
  induction xs with
  | nil => simp [mapList]
  | cons x xs ih =>
    simp only [mapList, seq_assoc, ret_seq, List.flatMap_cons, mapList_append, hg, List.flatten_cons]
    congr 1; funext as
    rw [← ih, seq_assoc]
    simp

theorem filterMapList_if (c : A → Bool) (g : A → Act σ B) (xs : List A) :
    filterMapList (fun a => if c a then ret none else (g a).seq fun b => ret (some b)) xs =
      mapList g (xs.filter fun a => !c a) := by
  induction xs with
  | nil => rfl
  | cons x xs ih =>
    simp only [filterMapList, List.filter_cons]
    by_cases hc : c x
    · simp [hc, ih]
    · simp [hc, ih, seq_assoc, mapList]

theorem foldList_pure (f : U → A → U) (xs : List A) (u : U) :
    foldList (fun u a => (ret (f u a) : Act σ U)) xs u = ret (xs.foldl f u) := by
  induction xs generalizing u with
  | nil => rfl
  | cons x xs ih => simp [foldList, ih]

end Act

open Act

theorem callStep_error (f : A → Act σ B) (xs : List A) (p : Panic) (w : σ) :
    xs.foldl (Spec.callStep f) (.error p, w) = (.error p, w) := by
  induction xs with
  | nil => rfl
  | cons x xs ih => exact ih

theorem calls_eq (f : A → Act σ B) (xs : List A) : Spec.calls f xs = mapList f xs := by
  have key : ∀ (xs : List A) (bs : List B) (w : σ),
      xs.foldl (Spec.callStep f) (.ok bs, w) = ((mapList f xs).seq fun cs => ret (bs ++ cs)) w := by
    intro xs
    induction xs with
    | nil => intro bs w; simp [mapList, ret]
    | cons x xs ih =>
      intro bs w
      simp only [List.foldl_cons, Spec.callStep]
      rcases hx : f x w with ⟨p | b, w1⟩
      · simp only [callStep_error, mapList, seq_assoc]
        rw [seq_error hx]
      · simp only [ih, mapList, seq_assoc]
        rw [seq_ok hx]
        simp [ret_seq, List.append_assoc]
  funext w
  have := key xs [] w
  simpa [Spec.calls] using this

theorem passStep_error (f : U → A → Act σ U) (xs : List A) (p : Panic) (w : σ) :
    xs.foldl (Spec.passStep f) (.error p, w) = (.error p, w) := by
  induction xs with
  | nil => rfl
  | cons x xs ih => exact ih

theorem passes_eq (f : U → A → Act σ U) (xs : List A) (u : U) : Spec.passes f xs u = foldList f xs u := by
  funext w
  unfold Spec.passes
  induction xs generalizing u w with
  | nil => rfl
  | cons x xs ih =>
    simp only [List.foldl_cons, foldList, Spec.passStep]
    rcases hx : f u x w with ⟨p | u', w1⟩
    · rw [passStep_error, seq_error hx]
    · rw [ih, seq_ok hx]

open Spec

/-- A run that maps `f` over the held values and rebuilds the container. -/
theorem visits_of_list {F : Type → Type} [RFunctor F] [HasElems F] {x : F A} {f : A → Act σ B} {m : Act σ (F B)}
    {xs : List A} (r : List B → F B) (hx : elems x = xs) (hm : m = (mapList f xs).seq fun bs => ret (r bs))
    (hr : ∀ bs : List B, bs.length = xs.length → elems (r bs) = bs ∧ void (r bs) = void x) :
    VisitsOnce x f m := by
  intro w
  rw [calls_eq, hx, hm]
  rcases h : mapList f xs w with ⟨p | bs, w'⟩
  · exact seq_error h
  · obtain ⟨h1, h2⟩ := hr bs (mapList_length f xs w w' bs h)
    exact ⟨r bs, seq_ok h, h1, h2⟩

/-- A container that holds one value. -/
theorem visits_one {F : Type → Type} [RFunctor F] [HasElems F] {x : F A} {f : A → Act σ B} {m : Act σ (F B)}
    {a : A} (r : B → F B) (hx : elems x = [a]) (hm : m = (f a).seq fun b => ret (r b))
    (hr : ∀ b : B, elems (r b) = [b] ∧ void (r b) = void x) : VisitsOnce x f m := by
  intro w
  rw [calls_eq, hx, hm]
  simp only [mapList, seq]
  rcases h : f a w with ⟨p | b, w'⟩
  · rfl
  · exact ⟨r b, rfl, (hr b).1, (hr b).2⟩

/-- A container that holds no value. -/
theorem visits_none {F : Type → Type} [RFunctor F] [HasElems F] {x : F A} {f : A → Act σ B} {m : Act σ (F B)}
    (y : F B) (hx : elems x = []) (hm : m = ret y) (hy : elems y = []) (hv : void y = void x) : VisitsOnce x f m := by
  intro w
  rw [calls_eq, hx, hm]
  exact ⟨y, rfl, hy, hv⟩

theorem foldl_flatMap (h : A → List C) (step : List C → A → List C) (hs : ∀ r a, step r a = r ++ h a)
    (xs : List A) (r0 : List C) : xs.foldl step r0 = r0 ++ xs.flatMap h := by
  induction xs generalizing r0 with
  | nil => simp
  | cons x xs ih => simp [hs, ih]

end Rustica
