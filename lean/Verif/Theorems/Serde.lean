import Verif.Data.Serde

/-!
# C84: a value that was written is read back unchanged

True type by type where the content is not directly inside an `Option`; `First` and `Last` are newtypes around
`Option`, and lose the difference between no value and a value that is itself written as `null`.  The last part
gives the exact condition for every type that can be built from these.
-/

namespace Rustica.Serde
variable {A E L R T W : Type}

/-- Writing and then reading gives the value back. -/
def RoundTrips (c : Codec A) : Prop := ∀ a, c.de (c.ser a) = some a

/-- Some value is written as `null`. -/
def Nullable (c : Codec A) : Prop := ∃ a, c.ser a = .null

/-! ## Elements -/

theorem int_roundTrips : RoundTrips int := fun _ => rfl
theorem string_roundTrips : RoundTrips string := fun _ => rfl
theorem bool_roundTrips : RoundTrips bool := fun _ => rfl
theorem unit_roundTrips : RoundTrips unit := fun _ => rfl

theorem deList_ser (c : Codec T) (xs : List T) (h : ∀ a ∈ xs, c.de (c.ser a) = some a) :
    deList c.de (xs.map c.ser) = some xs := by
  induction xs with
  | nil => rfl
  | cons a xs ih =>
    rw [List.map_cons, deList, h a (List.mem_cons_self ..)]
    simp only [ih fun b hb => h b (List.mem_cons_of_mem _ hb), Option.map_some]

theorem vec_roundTrips (c : Codec T) (h : RoundTrips c) : RoundTrips (vec c) :=
  fun xs => deList_ser c xs fun a _ => h a

theorem option_de (c : Codec T) (j : Json) (h : j ≠ .null) : (option c).de j = (c.de j).map some := by
  cases j with
  | null => exact absurd rfl h
  | _ => rfl

/-! ## The types of the crate -/

/-- `Min`, `Max`, `Sum`, `Product`: read back unchanged if the content is, value by value. -/
theorem c84_newtypes (c : Codec T) (a : T) (h : c.de (c.ser a) = some a) :
    (min c).de ((min c).ser ⟨a⟩) = some ⟨a⟩ ∧ (max c).de ((max c).ser ⟨a⟩) = some ⟨a⟩ ∧
    (sum c).de ((sum c).ser ⟨a⟩) = some ⟨a⟩ ∧ (product c).de ((product c).ser ⟨a⟩) = some ⟨a⟩ := by
  have := congrArg (Option.map Min.mk) h
  have := congrArg (Option.map Max.mk) h
  have := congrArg (Option.map Sum.mk) h
  have := congrArg (Option.map Product.mk) h
  refine ⟨?_, ?_, ?_, ?_⟩ <;> assumption

example : (min int).de ((min int).ser ⟨42⟩) = some ⟨42⟩ := (c84_newtypes int 42 rfl).1

/-- `Id`. -/
theorem c84_id (c : Codec T) (a : T) (h : c.de (c.ser a) = some a) : (id c).de ((id c).ser ⟨a⟩) = some ⟨a⟩ := by
  show ((c.de (c.ser a)).map RId.mk) = _
  rw [h]
  rfl

example : (id string).de ((id string).ser ⟨"hello"⟩) = some ⟨"hello"⟩ := c84_id string "hello" rfl

/-- `Choice`, any number of alternatives. -/
theorem c84_choice (c : Codec T) (xs : List T) (h : ∀ a ∈ xs, c.de (c.ser a) = some a) :
    (choice c).de ((choice c).ser ⟨xs⟩) = some ⟨xs⟩ := by
  show ((deList c.de (xs.map c.ser)).map Choice.mk) = _
  rw [deList_ser c xs h]
  rfl

example : (choice int).de ((choice int).ser ⟨[1, 2, 3, 4]⟩) = some ⟨[1, 2, 3, 4]⟩ :=
  c84_choice int _ fun _ _ => rfl

/-- `Writer`. -/
theorem c84_writer (cw : Codec W) (ca : Codec A) (w : W) (a : A) (hw : cw.de (cw.ser w) = some w)
    (ha : ca.de (ca.ser a) = some a) : (writer cw ca).de ((writer cw ca).ser ⟨w, a⟩) = some ⟨w, a⟩ := by
  show (match cw.de (cw.ser w), ca.de (ca.ser a) with
    | some x, some y => some (Writer.mk x y)
    | _, _ => none) = _
  rw [hw, ha]

example : (writer (vec string) int).de ((writer (vec string) int).ser ⟨["start"], 42⟩) = some ⟨["start"], 42⟩ :=
  c84_writer _ _ _ _ rfl rfl

/-- `Writer` is read from an object with its two fields in any order, with other fields around them, and from an
array of the two. -/
theorem c84_writer_field_order (cw : Codec W) (ca : Codec A) (j k : Json) (w : W) (a : A)
    (hw : cw.de j = some w) (ha : ca.de k = some a) (other : String) (x : Json) (h1 : other ≠ "log")
    (h2 : other ≠ "value") :
    (writer cw ca).de (.obj [("log", j), ("value", k)]) = some ⟨w, a⟩ ∧
    (writer cw ca).de (.obj [("value", k), ("log", j)]) = some ⟨w, a⟩ ∧
    (writer cw ca).de (.obj [("value", k), (other, x), ("log", j)]) = some ⟨w, a⟩ ∧
    (writer cw ca).de (.arr [j, k]) = some ⟨w, a⟩ := by
  have e1 : (other == "log") = false := by simpa using h1
  have e2 : (other == "value") = false := by simpa using h2
  have f1 : deField "log" cw [("log", j), ("value", k)] = some w := hw
  have f2 : deField "value" ca [("log", j), ("value", k)] = some a := ha
  have g1 : deField "log" cw [("value", k), ("log", j)] = some w := hw
  have g2 : deField "value" ca [("value", k), ("log", j)] = some a := ha
  have h1 : deField "log" cw [("value", k), (other, x), ("log", j)] = some w := by
    simp [deField, List.filter, e1, hw]
  have h2 : deField "value" ca [("value", k), (other, x), ("log", j)] = some a := by
    simp [deField, List.filter, e2, ha]
  refine ⟨?_, ?_, ?_, ?_⟩
  · simp only [writer, struct2, f1, f2]
  · simp only [writer, struct2, g1, g2]
  · simp only [writer, struct2, h1, h2]
  · simp only [writer, struct2, hw, ha]

example : (writer string int).de (.obj [("value", .num 42), ("extra", .null), ("log", .str "start")]) =
    some ⟨"start", 42⟩ :=
  (c84_writer_field_order string int (.str "start") (.num 42) "start" 42 rfl rfl "extra" .null
    (by decide) (by decide)).2.2.1

theorem deList_iff (de : Json → Option T) (js : List Json) (xs : List T) :
    deList de js = some xs ↔ js.map de = xs.map some := by
  induction js generalizing xs with
  | nil => cases xs <;> simp [deList]
  | cons j js ih =>
    rw [deList]
    cases hj : de j with
    | none => cases xs <;> simp [hj]
    | some a =>
      cases xs with
      | nil => cases h : deList de js <;> simp
      | cons x xs =>
        have := ih xs
        cases h : deList de js with
        | none => simp [hj, h] at this ⊢; intro _ he; exact this he
        | some ys =>
          rw [h] at this
          simp only [Option.some.injEq] at this
          simp only [Option.map_some, Option.some.injEq, List.cons.injEq, List.map_cons, hj, this]

/-- Reading is strict: a `Choice` or the errors of a `Validated` are read from an array exactly if every element
can be read, and then they are these elements in order; none is dropped. -/
theorem c84_reads_all (c : Codec T) (ca : Codec A) (js : List Json) (xs : List T) :
    ((choice c).de (.obj [("values", .arr js)]) = some ⟨xs⟩ ↔ js.map c.de = xs.map some) ∧
    ((validated c ca).de (.obj [("Invalid", .arr js)]) = some (.Invalid xs) ↔ js.map c.de = xs.map some) := by
  rw [← deList_iff]
  constructor
  · show (deList c.de js).map Choice.mk = _ ↔ _
    cases deList c.de js <;> simp
  · show (deList c.de js).map Validated.Invalid = _ ↔ _
    cases deList c.de js <;> simp

/-- `Id` and `Choice` are also read from an array of their one field, and from no array of another length; other fields
of an object do not matter. -/
theorem c84_struct1_reads (c : Codec T) (j x : Json) (js : List Json) (name : String) (h : name ≠ "value")
    (hl : js.length ≠ 1) :
    (id c).de (.arr [j]) = (c.de j).map RId.mk ∧ (choice c).de (.arr [.arr js]) = (deList c.de js).map Choice.mk ∧
    (id c).de (.obj [(name, x), ("value", j)]) = (c.de j).map RId.mk ∧
    (id c).de (.obj [("value", j), (name, x)]) = (c.de j).map RId.mk ∧
    (id c).de (.arr js) = none ∧ (choice c).de (.arr js) = none := by
  refine ⟨rfl, rfl, ?_, ?_, ?_, ?_⟩
  · simp [id, struct1, deField, h]
  · simp [id, struct1, deField, h]
  · match js, hl with
    | [], _ => rfl
    | _ :: _ :: _, _ => rfl
  · match js, hl with
    | [], _ => rfl
    | _ :: _ :: _, _ => rfl

example : (id int).de (.obj [("unit", .null), ("value", int.ser 7)]) = some ⟨7⟩ ∧
    (id int).de (.arr [int.ser 1, int.ser 2]) = none :=
  ⟨(c84_struct1_reads int (int.ser 7) .null [] "unit" (by decide) (by decide)).2.2.1,
    (c84_struct1_reads int (int.ser 7) .null [int.ser 1, int.ser 2] "unit" (by decide) (by decide)).2.2.2.2.1⟩

/-- A field met twice is an error, whatever the two values are. -/
theorem c84_duplicate_field (c : Codec T) (cw : Codec W) (i j k : Json) :
    (id c).de (.obj [("value", i), ("value", j)]) = none ∧ (choice c).de (.obj [("values", i), ("values", j)]) = none ∧
    (writer cw c).de (.obj [("log", i), ("value", j), ("log", k)]) = none ∧
    (writer cw c).de (.obj [("value", i), ("log", j), ("value", k)]) = none := by
  have h : deField "value" c [("value", i), ("log", j), ("value", k)] = none := rfl
  refine ⟨rfl, rfl, rfl, ?_⟩
  simp only [writer, struct2, h]
  split <;> first | rfl | contradiction

/-- What is written: the wrappers disappear, a struct is an object with its field names, an enum is tagged with the
name of its variant. -/
theorem c84_written (c : Codec T) (d : Codec A) (x : T) (y : A) (xs : List T) :
    ((min c).ser ⟨x⟩ = c.ser x ∧ (max c).ser ⟨x⟩ = c.ser x ∧ (sum c).ser ⟨x⟩ = c.ser x ∧
      (product c).ser ⟨x⟩ = c.ser x ∧ (first c).ser ⟨some x⟩ = c.ser x ∧ (first c).ser ⟨none⟩ = .null ∧
      (last c).ser ⟨some x⟩ = c.ser x ∧ (last c).ser ⟨none⟩ = .null) ∧
    (id c).ser ⟨x⟩ = .obj [("value", c.ser x)] ∧
    (choice c).ser ⟨xs⟩ = .obj [("values", .arr (xs.map c.ser))] ∧
    (writer c d).ser ⟨x, y⟩ = .obj [("log", c.ser x), ("value", d.ser y)] ∧
    (maybe c).ser (.Just x) = .obj [("Just", c.ser x)] ∧ (maybe c).ser .Nothing = .str "Nothing" ∧
    (either c d).ser (.Left x) = .obj [("Left", c.ser x)] ∧ (either c d).ser (.Right y) = .obj [("Right", d.ser y)] ∧
    (validated c d).ser (.Valid y) = .obj [("Valid", d.ser y)] ∧
    (validated c d).ser (.Invalid xs) = .obj [("Invalid", .arr (xs.map c.ser))] :=
  ⟨⟨rfl, rfl, rfl, rfl, rfl, rfl, rfl, rfl⟩, rfl, rfl, rfl, rfl, rfl, rfl, rfl, rfl, rfl⟩

/-- `Maybe`. -/
theorem c84_maybe (c : Codec T) (m : Maybe T) (h : ∀ a, m = .Just a → c.de (c.ser a) = some a) :
    (maybe c).de ((maybe c).ser m) = some m := by
  cases m with
  | Nothing => rfl
  | Just a =>
    show (c.de (c.ser a)).map Maybe.Just = _
    rw [h a rfl]
    rfl

example : (maybe unit).de ((maybe unit).ser (.Just ())) = some (.Just ()) := c84_maybe _ _ fun _ _ => rfl

/-- `Either`. -/
theorem c84_either (cl : Codec L) (cr : Codec R) (x : Either L R)
    (hl : ∀ a, x = .Left a → cl.de (cl.ser a) = some a) (hr : ∀ a, x = .Right a → cr.de (cr.ser a) = some a) :
    (either cl cr).de ((either cl cr).ser x) = some x := by
  cases x with
  | Left a =>
    show (cl.de (cl.ser a)).map Either.Left = _
    rw [hl a rfl]
    rfl
  | Right a =>
    show (cr.de (cr.ser a)).map Either.Right = _
    rw [hr a rfl]
    rfl

example : (either string int).de ((either string int).ser (.Left "error")) = some (.Left "error") :=
  c84_either _ _ _ (fun _ _ => rfl) (fun _ _ => rfl)

/-- `Validated`, any number of errors, none included. -/
theorem c84_validated (ce : Codec E) (ca : Codec A) (v : Validated E A)
    (ha : ∀ a, v = .Valid a → ca.de (ca.ser a) = some a)
    (he : ∀ es, v = .Invalid es → ∀ e ∈ es, ce.de (ce.ser e) = some e) :
    (validated ce ca).de ((validated ce ca).ser v) = some v := by
  cases v with
  | Valid a =>
    show (ca.de (ca.ser a)).map Validated.Valid = _
    rw [ha a rfl]
    rfl
  | Invalid es =>
    show (deList ce.de (es.map ce.ser)).map Validated.Invalid = _
    rw [deList_ser ce es (he es rfl)]
    rfl

example : (validated string int).de ((validated string int).ser (.Invalid ["error1", "error2"])) =
    some (.Invalid ["error1", "error2"]) :=
  c84_validated _ _ _ (fun _ _ => rfl) (fun _ _ _ _ => rfl)

/-- Exactly which documents the element types are read from: nothing is converted. -/
theorem c84_elements_read (j : Json) (i : Int) (s : String) (b : Bool) :
    (int.de j = some i ↔ j = .num i) ∧ (string.de j = some s ↔ j = .str s) ∧ (bool.de j = some b ↔ j = .bool b) ∧
    (unit.de j = some () ↔ j = .null) := by
  cases j <;> simp [int, string, bool, unit]

/-- Exactly which documents the three enums are read from. -/
theorem c84_variants_read (c : Codec T) (d : Codec A) (j : Json) :
    (∀ m, (maybe c).de j = some m ↔
      (m = .Nothing ∧ (j = .str "Nothing" ∨ j = .obj [("Nothing", .null)])) ∨
      ∃ k a, j = .obj [("Just", k)] ∧ c.de k = some a ∧ m = .Just a) ∧
    (∀ m, (either c d).de j = some m ↔
      (∃ k a, j = .obj [("Left", k)] ∧ c.de k = some a ∧ m = .Left a) ∨
      ∃ k a, j = .obj [("Right", k)] ∧ d.de k = some a ∧ m = .Right a) ∧
    (∀ m, (validated c d).de j = some m ↔
      (∃ k a, j = .obj [("Valid", k)] ∧ d.de k = some a ∧ m = .Valid a) ∨
      ∃ ks es, j = .obj [("Invalid", .arr ks)] ∧ ks.map c.de = es.map some ∧ m = .Invalid es) := by
  refine ⟨fun m => ⟨fun h => ?_, fun h => ?_⟩, fun m => ⟨fun h => ?_, fun h => ?_⟩, fun m => ⟨fun h => ?_, fun h => ?_⟩⟩
  · simp only [maybe] at h
    split at h
    · obtain ⟨a, ha, rfl⟩ := Option.map_eq_some_iff.1 h
      exact .inr ⟨_, a, rfl, ha, rfl⟩
    · cases h; exact .inl ⟨rfl, .inr rfl⟩
    · cases h; exact .inl ⟨rfl, .inl rfl⟩
    · cases h
  · rcases h with ⟨rfl, rfl | rfl⟩ | ⟨k, a, rfl, ha, rfl⟩
    · rfl
    · rfl
    · show (c.de k).map Maybe.Just = _
      rw [ha]; rfl
  · simp only [either] at h
    split at h
    · obtain ⟨a, ha, rfl⟩ := Option.map_eq_some_iff.1 h
      exact .inl ⟨_, a, rfl, ha, rfl⟩
    · obtain ⟨a, ha, rfl⟩ := Option.map_eq_some_iff.1 h
      exact .inr ⟨_, a, rfl, ha, rfl⟩
    · cases h
  · rcases h with ⟨k, a, rfl, ha, rfl⟩ | ⟨k, a, rfl, ha, rfl⟩
    · show (c.de k).map Either.Left = _
      rw [ha]; rfl
    · show (d.de k).map Either.Right = _
      rw [ha]; rfl
  · simp only [validated] at h
    split at h
    · obtain ⟨a, ha, rfl⟩ := Option.map_eq_some_iff.1 h
      exact .inl ⟨_, a, rfl, ha, rfl⟩
    · obtain ⟨a, ha, rfl⟩ := Option.map_eq_some_iff.1 h
      simp only [vec] at ha
      split at ha
      · exact .inr ⟨_, a, rfl, (deList_iff _ _ _).1 ha, rfl⟩
      · cases ha
    · cases h
  · rcases h with ⟨k, a, rfl, ha, rfl⟩ | ⟨ks, es, rfl, ha, rfl⟩
    · show (d.de k).map Validated.Valid = _
      rw [ha]; rfl
    · show (deList c.de ks).map Validated.Invalid = _
      rw [(deList_iff _ _ _).2 ha]; rfl

/-- `Option`: a value comes back exactly if it is none, or its content comes back and is not written as `null`. -/
theorem option_iff (c : Codec T) (o : Option T) :
    (option c).de ((option c).ser o) = some o ↔ ∀ a, o = some a → c.ser a ≠ .null ∧ c.de (c.ser a) = some a := by
  cases o with
  | none => exact ⟨fun _ a h => (by cases h), fun _ => rfl⟩
  | some a =>
    show (option c).de (c.ser a) = _ ↔ _
    constructor
    · intro h a' ha
      cases ha
      have hn : c.ser a ≠ .null := by
        intro hn
        rw [hn] at h
        cases h
      refine ⟨hn, ?_⟩
      rw [option_de c _ hn] at h
      cases hd : c.de (c.ser a) with
      | none => rw [hd] at h; cases h
      | some b => rw [hd] at h; cases h; rfl
    · intro h
      obtain ⟨hn, hd⟩ := h a rfl
      rw [option_de c _ hn, hd]
      rfl

/-- `First`: exactly when a value comes back.  What is missing from "always" is a content that is written as
`null` (`c84_first_last_false`). -/
theorem c84_first_partial (c : Codec T) (x : First T) :
    (first c).de ((first c).ser x) = some x ↔
      ∀ a, x.val = some a → c.ser a ≠ .null ∧ c.de (c.ser a) = some a := by
  rw [← option_iff]
  show ((option c).de ((option c).ser x.val)).map First.mk = _ ↔ _
  cases (option c).de ((option c).ser x.val) with
  | none => simp
  | some y => rcases x with ⟨x⟩; simp

/-- `Last`: the same. -/
theorem c84_last_partial (c : Codec T) (x : Last T) :
    (last c).de ((last c).ser x) = some x ↔
      ∀ a, x.val = some a → c.ser a ≠ .null ∧ c.de (c.ser a) = some a := by
  rw [← option_iff]
  show ((option c).de ((option c).ser x.val)).map Last.mk = _ ↔ _
  cases (option c).de ((option c).ser x.val) with
  | none => simp
  | some y => rcases x with ⟨x⟩; simp

example : (first int).de ((first int).ser ⟨some 42⟩) = some ⟨some 42⟩ :=
  (c84_first_partial int _).2 fun a ha => by cases ha; exact ⟨fun h => (by cases h), rfl⟩

/-- `First(Some(()))`, `First(Some(First(None)))` and their `Last` counterparts come back as the empty value. -/
theorem c84_first_last_false :
    (first unit).de ((first unit).ser ⟨some ()⟩) = some ⟨none⟩ ∧
    (first (first int)).de ((first (first int)).ser ⟨some ⟨none⟩⟩) = some ⟨none⟩ ∧
    (last unit).de ((last unit).ser ⟨some ()⟩) = some ⟨none⟩ ∧
    (last (last int)).de ((last (last int)).ser ⟨some ⟨none⟩⟩) = some ⟨none⟩ :=
  ⟨rfl, rfl, rfl, rfl⟩

/-- `Maybe` keeps the two apart. -/
theorem c84_maybe_in_maybe :
    (maybe (maybe int)).de ((maybe (maybe int)).ser (.Just .Nothing)) = some (.Just .Nothing) ∧
    (maybe (first int)).de ((maybe (first int)).ser (.Just ⟨none⟩)) = some (.Just ⟨none⟩) := ⟨rfl, rfl⟩

/-- Two values that both come back are written differently if they differ. -/
theorem c84_injective (c : Codec A) (h : RoundTrips c) (a b : A) (hab : c.ser a = c.ser b) : a = b := by
  have := h a
  rw [hab, h b] at this
  exact (Option.some.inj this).symm

example : RoundTrips (maybe int) := fun m => c84_maybe int m fun _ _ => rfl

/-! ## Every type built from these -/

/-- The types that can be built from the derived types of the crate and some types with known encodings. -/
inductive Ty
  | int | string | bool | unit
  | option (t : Ty) | vec (t : Ty)
  | min (t : Ty) | max (t : Ty) | sum (t : Ty) | product (t : Ty)
  | first (t : Ty) | last (t : Ty)
  | id (t : Ty) | choice (t : Ty) | maybe (t : Ty)
  | writer (w a : Ty) | either (l r : Ty) | validated (e a : Ty)

/-- The values of such a type, in the model. -/
def Ty.Val : Ty → Type
  | .int => Int
  | .string => String
  | .bool => Bool
  | .unit => Unit
  | .option t => Option t.Val
  | .vec t => List t.Val
  | .min t => Min t.Val
  | .max t => Max t.Val
  | .sum t => Sum t.Val
  | .product t => Product t.Val
  | .first t => First t.Val
  | .last t => Last t.Val
  | .id t => RId t.Val
  | .choice t => Choice t.Val
  | .maybe t => Maybe t.Val
  | .writer w a => Writer w.Val a.Val
  | .either l r => Either l.Val r.Val
  | .validated e a => Validated e.Val a.Val

/-- Its encoding. -/
def Ty.codec : (t : Ty) → Codec t.Val
  | .int => Serde.int
  | .string => Serde.string
  | .bool => Serde.bool
  | .unit => Serde.unit
  | .option t => Serde.option t.codec
  | .vec t => Serde.vec t.codec
  | .min t => Serde.min t.codec
  | .max t => Serde.max t.codec
  | .sum t => Serde.sum t.codec
  | .product t => Serde.product t.codec
  | .first t => Serde.first t.codec
  | .last t => Serde.last t.codec
  | .id t => Serde.id t.codec
  | .choice t => Serde.choice t.codec
  | .maybe t => Serde.maybe t.codec
  | .writer w a => Serde.writer w.codec a.codec
  | .either l r => Serde.either l.codec r.codec
  | .validated e a => Serde.validated e.codec a.codec

/-- Some value of the type is written as `null`: `()`, `Option`, `First`, `Last`, and `Min`, `Max`, `Sum`,
`Product` of such a type. -/
def Ty.nullable : Ty → Bool
  | .unit | .option _ | .first _ | .last _ => true
  | .min t | .max t | .sum t | .product t => t.nullable
  | _ => false

/-- No `Option`, `First` or `Last` in the type has a content of which some value is written as `null`. -/
def Ty.safe : Ty → Bool
  | .int | .string | .bool | .unit => true
  | .option t | .first t | .last t => t.safe && !t.nullable
  | .vec t | .min t | .max t | .sum t | .product t | .id t | .choice t | .maybe t => t.safe
  | .writer t u | .either t u | .validated t u => t.safe && u.safe

theorem Ty.nonempty : (t : Ty) → Nonempty t.Val
  | .int => ⟨(0 : Int)⟩
  | .string => ⟨""⟩
  | .bool => ⟨true⟩
  | .unit => ⟨()⟩
  | .option _ => ⟨(none : Option _)⟩
  | .vec _ => ⟨([] : List _)⟩
  | .min t => t.nonempty.elim fun a => ⟨Min.mk a⟩
  | .max t => t.nonempty.elim fun a => ⟨Max.mk a⟩
  | .sum t => t.nonempty.elim fun a => ⟨Sum.mk a⟩
  | .product t => t.nonempty.elim fun a => ⟨Product.mk a⟩
  | .first _ => ⟨First.mk none⟩
  | .last _ => ⟨Last.mk none⟩
  | .id t => t.nonempty.elim fun a => ⟨RId.mk a⟩
  | .choice _ => ⟨Choice.mk []⟩
  | .maybe _ => ⟨(Maybe.Nothing : Maybe _)⟩
  | .writer w a => w.nonempty.elim fun x => a.nonempty.elim fun y => ⟨Writer.mk x y⟩
  | .either l _ => l.nonempty.elim fun x => ⟨(Either.Left x : Either _ _)⟩
  | .validated _ a => a.nonempty.elim fun x => ⟨(Validated.Valid x : Validated _ _)⟩

/-- A missing field is an error unless its type is `Option` (not a newtype around it, such as `First`), in which
case it is read as `None`. -/
theorem c84_missing_field (t : Ty) :
    (id t.codec).de (.obj []) = none ↔ ¬ ∃ u, t = .option u := by
  cases t with
  | option u => exact ⟨fun h => (by cases h), fun h => absurd ⟨u, rfl⟩ h⟩
  | _ => exact ⟨fun _ ⟨u, h⟩ => (by cases h), fun _ => rfl⟩

example : (id (Ty.codec (.option .int))).de (.obj []) = some ⟨(none : Option Int)⟩ ∧
    (id (Ty.codec (.first .int))).de (.obj []) = none := ⟨rfl, (c84_missing_field _).2 (by simp)⟩

theorem maybe_not_nullable (c : Codec T) : ¬ Nullable (maybe c) := by
  rintro ⟨m, h⟩
  cases m <;> cases h
theorem either_not_nullable (c : Codec L) (d : Codec R) : ¬ Nullable (either c d) := by
  rintro ⟨m, h⟩
  cases m <;> cases h
theorem validated_not_nullable (c : Codec E) (d : Codec A) : ¬ Nullable (validated c d) := by
  rintro ⟨m, h⟩
  cases m <;> cases h

theorem Ty.nullable_iff (t : Ty) : Nullable t.codec ↔ t.nullable = true := by
  induction t with
  | int => exact ⟨fun ⟨_, h⟩ => (by cases h), fun h => (by cases h)⟩
  | string => exact ⟨fun ⟨_, h⟩ => (by cases h), fun h => (by cases h)⟩
  | bool => exact ⟨fun ⟨_, h⟩ => (by cases h), fun h => (by cases h)⟩
  | unit => exact ⟨fun _ => rfl, fun _ => ⟨(), rfl⟩⟩
  | option t _ => exact ⟨fun _ => rfl, fun _ => ⟨(none : Option _), rfl⟩⟩
  | first t _ => exact ⟨fun _ => rfl, fun _ => ⟨First.mk none, rfl⟩⟩
  | last t _ => exact ⟨fun _ => rfl, fun _ => ⟨Last.mk none, rfl⟩⟩
  | vec t _ => exact ⟨fun ⟨_, h⟩ => (by cases h), fun h => (by cases h)⟩
  | min t ih => exact ⟨fun ⟨a, h⟩ => ih.1 ⟨a.val, h⟩, fun h => (ih.2 h).elim fun a h => ⟨Min.mk a, h⟩⟩
  | max t ih => exact ⟨fun ⟨a, h⟩ => ih.1 ⟨a.val, h⟩, fun h => (ih.2 h).elim fun a h => ⟨Max.mk a, h⟩⟩
  | sum t ih => exact ⟨fun ⟨a, h⟩ => ih.1 ⟨a.val, h⟩, fun h => (ih.2 h).elim fun a h => ⟨Sum.mk a, h⟩⟩
  | product t ih => exact ⟨fun ⟨a, h⟩ => ih.1 ⟨a.val, h⟩, fun h => (ih.2 h).elim fun a h => ⟨Product.mk a, h⟩⟩
  | id t _ => exact ⟨fun ⟨_, h⟩ => (by cases h), fun h => (by cases h)⟩
  | choice t _ => exact ⟨fun ⟨_, h⟩ => (by cases h), fun h => (by cases h)⟩
  | maybe t _ => exact ⟨fun h => absurd h (maybe_not_nullable _), fun h => (by cases h)⟩
  | writer w a _ _ => exact ⟨fun ⟨_, h⟩ => (by cases h), fun h => (by cases h)⟩
  | either l r _ _ => exact ⟨fun h => absurd h (either_not_nullable _ _), fun h => (by cases h)⟩
  | validated e a _ _ => exact ⟨fun h => absurd h (validated_not_nullable _ _), fun h => (by cases h)⟩

theorem map_eq_some {B : Type} (f : A → B) (hf : ∀ a b, f a = f b → a = b) (o : Option A) (a : A) :
    o.map f = some (f a) ↔ o = some a := by
  cases o with
  | none => simp
  | some b => simp only [Option.map_some, Option.some.injEq]; exact ⟨hf _ _, fun h => h ▸ rfl⟩

theorem newtype_iff (wrap : T → A) (unwrap : A → T) (c : Codec T) (h : ∀ a, wrap (unwrap a) = a)
    (h' : ∀ t, unwrap (wrap t) = t) : RoundTrips (newtype wrap unwrap c) ↔ RoundTrips c := by
  have hf : ∀ a b, wrap a = wrap b → a = b := fun a b hab => by rw [← h' a, hab, h' b]
  constructor
  · intro hr a
    have := hr (wrap a)
    simp only [newtype, h'] at this
    exact (map_eq_some wrap hf _ _).1 this
  · intro hr a
    show (c.de (c.ser (unwrap a))).map wrap = _
    rw [hr, Option.map_some, h]

theorem option_roundTrips_iff (c : Codec T) : RoundTrips (option c) ↔ RoundTrips c ∧ ¬ Nullable c := by
  constructor
  · intro h
    exact ⟨fun a => ((option_iff c _).1 (h (some a)) a rfl).2,
      fun ⟨a, ha⟩ => ((option_iff c _).1 (h (some a)) a rfl).1 ha⟩
  · rintro ⟨h, hn⟩ o
    exact (option_iff c o).2 fun a _ => ⟨fun ha => hn ⟨a, ha⟩, h a⟩

theorem vec_roundTrips_iff (c : Codec T) : RoundTrips (vec c) ↔ RoundTrips c := by
  refine ⟨fun h a => ?_, vec_roundTrips c⟩
  have := h [a]
  simp only [vec, List.map_cons, List.map_nil, deList] at this
  cases hd : c.de (c.ser a) with
  | none => rw [hd] at this; cases this
  | some b => rw [hd] at this; cases this; rfl

theorem id_roundTrips_iff (c : Codec T) : RoundTrips (id c) ↔ RoundTrips c :=
  ⟨fun h a => (map_eq_some RId.mk (fun _ _ h => RId.mk.inj h) _ _).1 (h ⟨a⟩), fun h a => c84_id c a.value (h _)⟩

theorem choice_roundTrips_iff (c : Codec T) : RoundTrips (choice c) ↔ RoundTrips c := by
  rw [← vec_roundTrips_iff c]
  exact ⟨fun h a => (map_eq_some Choice.mk (fun _ _ h => Choice.mk.inj h) _ _).1 (h ⟨a⟩),
    fun h a => c84_choice c a.values fun x _ => (vec_roundTrips_iff c).1 h x⟩

theorem maybe_roundTrips_iff (c : Codec T) : RoundTrips (maybe c) ↔ RoundTrips c :=
  ⟨fun h a => (map_eq_some Maybe.Just (fun _ _ h => Maybe.Just.inj h) _ _).1 (h (.Just a)),
    fun h m => c84_maybe c m fun a _ => h a⟩

theorem either_roundTrips_iff (c : Codec L) (d : Codec R) :
    RoundTrips (either c d) ↔ RoundTrips c ∧ RoundTrips d :=
  ⟨fun h => ⟨fun a => (map_eq_some Either.Left (fun _ _ h => Either.Left.inj h) _ _).1 (h (.Left a)),
    fun a => (map_eq_some Either.Right (fun _ _ h => Either.Right.inj h) _ _).1 (h (.Right a))⟩,
    fun h m => c84_either c d m (fun a _ => h.1 a) (fun a _ => h.2 a)⟩

theorem validated_roundTrips_iff (c : Codec E) (d : Codec A) :
    RoundTrips (validated c d) ↔ RoundTrips c ∧ RoundTrips d := by
  constructor
  · intro h
    refine ⟨(vec_roundTrips_iff c).1 fun es => ?_, fun a => ?_⟩
    · exact (map_eq_some Validated.Invalid (fun _ _ h => Validated.Invalid.inj h) _ _).1 (h (.Invalid es))
    · exact (map_eq_some Validated.Valid (fun _ _ h => Validated.Valid.inj h) _ _).1 (h (.Valid a))
  · exact fun h v => c84_validated c d v (fun a _ => h.2 a) (fun _ _ e _ => h.1 e)

theorem writer_roundTrips_iff [hw : Nonempty W] [ha : Nonempty A] (c : Codec W) (d : Codec A) :
    RoundTrips (writer c d) ↔ RoundTrips c ∧ RoundTrips d := by
  have key : ∀ w a, (writer c d).de ((writer c d).ser ⟨w, a⟩) = some ⟨w, a⟩ →
      c.de (c.ser w) = some w ∧ d.de (d.ser a) = some a := by
    intro w a h
    have h : (match c.de (c.ser w), d.de (d.ser a) with
      | some x, some y => some (Writer.mk x y)
      | _, _ => none) = some ⟨w, a⟩ := h
    cases hc : c.de (c.ser w) with
    | none => rw [hc] at h; cases h
    | some x =>
      cases hd : d.de (d.ser a) with
      | none => rw [hc, hd] at h; cases h
      | some y => rw [hc, hd] at h; cases h; exact ⟨rfl, rfl⟩
  obtain ⟨w0⟩ := hw
  obtain ⟨a0⟩ := ha
  exact ⟨fun h => ⟨fun w => (key w a0 (h _)).1, fun a => (key w0 a (h _)).2⟩,
    fun h x => c84_writer c d x.log x.value (h.1 _) (h.2 _)⟩

/-- The exact condition, for every type built from the derived types: all its values come back unchanged if and
only if no `Option`, `First` or `Last` in it has a content of which some value is written as `null`. -/
theorem c84_all_types_iff (t : Ty) : RoundTrips t.codec ↔ t.safe = true := by
  induction t with
  | int => exact ⟨fun _ => rfl, fun _ => int_roundTrips⟩
  | string => exact ⟨fun _ => rfl, fun _ => string_roundTrips⟩
  | bool => exact ⟨fun _ => rfl, fun _ => bool_roundTrips⟩
  | unit => exact ⟨fun _ => rfl, fun _ => unit_roundTrips⟩
  | option t ih =>
    show RoundTrips (option t.codec) ↔ _
    rw [option_roundTrips_iff, ih, Ty.nullable_iff]
    simp [Ty.safe]
  | first t ih =>
    show RoundTrips (newtype First.mk (fun x => x.val) (option t.codec)) ↔ _
    rw [newtype_iff _ _ _ (fun _ => rfl) (fun _ => rfl), option_roundTrips_iff, ih, Ty.nullable_iff]
    simp [Ty.safe]
  | last t ih =>
    show RoundTrips (newtype Last.mk (fun x => x.val) (option t.codec)) ↔ _
    rw [newtype_iff _ _ _ (fun _ => rfl) (fun _ => rfl), option_roundTrips_iff, ih, Ty.nullable_iff]
    simp [Ty.safe]
  | vec t ih => exact (vec_roundTrips_iff t.codec).trans ih
  | min t ih => exact (newtype_iff Min.mk (fun x => x.val) t.codec (fun _ => rfl) (fun _ => rfl)).trans ih
  | max t ih => exact (newtype_iff Max.mk (fun x => x.val) t.codec (fun _ => rfl) (fun _ => rfl)).trans ih
  | sum t ih => exact (newtype_iff Sum.mk (fun x => x.val) t.codec (fun _ => rfl) (fun _ => rfl)).trans ih
  | product t ih => exact (newtype_iff Product.mk (fun x => x.val) t.codec (fun _ => rfl) (fun _ => rfl)).trans ih
  | id t ih => exact (id_roundTrips_iff t.codec).trans ih
  | choice t ih => exact (choice_roundTrips_iff t.codec).trans ih
  | maybe t ih => exact (maybe_roundTrips_iff t.codec).trans ih
  | writer w a ihw iha =>
    have := w.nonempty
    have := a.nonempty
    refine (writer_roundTrips_iff w.codec a.codec).trans ?_
    rw [ihw, iha]
    simp [Ty.safe]
  | either l r ihl ihr =>
    refine (either_roundTrips_iff l.codec r.codec).trans ?_
    rw [ihl, ihr]
    simp [Ty.safe]
  | validated e a ihe iha =>
    refine (validated_roundTrips_iff e.codec a.codec).trans ?_
    rw [ihe, iha]
    simp [Ty.safe]

example : Ty.safe (.validated .string (.first (.maybe (.option .int)))) = true ∧
    Ty.safe (.id (.last (.sum (.first .int)))) = false := by decide

end Rustica.Serde
