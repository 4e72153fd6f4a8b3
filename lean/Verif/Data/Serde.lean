import Verif.Data.Choice
import Verif.Data.Either
import Verif.Data.Id
import Verif.Data.Maybe
import Verif.Data.Validated
import Verif.Data.Wrappers
import Verif.Data.Writer

/-!
# The serde derives (feature `serde`), through JSON

The types of the crate derive `Serialize` and `Deserialize` without attributes.  What the derive macros generate is
fixed by the shape of the type; together with the data format of `serde_json` this gives the functions below, from
and to JSON trees.  `serde_json::to_string` and `from_str` are taken to be inverse to each other between trees and
texts (no floats; nesting below the limit of 128 levels; an object is the list of its entries as they stand in the
text).

* a newtype struct is written as its content;
* a struct is written as an object with its fields in order; it is read from an object in any order, where unknown
  fields are skipped, a field met twice is an error and a missing field is an error unless its type is `Option`; or
  from an array of its fields in order;
* a variant with a content is written as an object with one entry, a variant without as its name; the latter is
  also read from an object whose one entry is `null`;
* `Option` is written as `null` or its content; `()` as `null`; `SmallVec` and `Vec` as arrays.
-/

namespace Rustica.Serde

/-- A JSON tree. -/
inductive Json
  | null
  | bool (b : Bool)
  | num (i : Int)
  | str (s : String)
  | arr (xs : List Json)
  | obj (entries : List (String × Json))

/-- `Serialize` and `Deserialize` through JSON. -/
structure Codec (A : Type) where
  /-- `serialize` -/
  ser : A → Json
  /-- `deserialize`; `none` is an error -/
  de : Json → Option A
  /-- what `serde::__private::de::missing_field` returns: an error except for `Option` -/
  missing : Option A

variable {A B E L R T W : Type}

/-! ## Types outside the crate -/

/-- An integer type (bounds are not modelled: a value of the type is in bounds). -/
def int : Codec Int where
  ser i := .num i
  de | .num i => some i | _ => none
  missing := none
/-- `String`. -/
def string : Codec String where
  ser s := .str s
  de | .str s => some s | _ => none
  missing := none
/-- `bool`. -/
def bool : Codec Bool where
  ser b := .bool b
  de | .bool b => some b | _ => none
  missing := none
/-- `()`. -/
def unit : Codec Unit where
  ser _ := .null
  de | .null => some () | _ => none
  missing := none
/-- `Option<T>`. -/
def option (c : Codec T) : Codec (Option T) where
  ser | none => .null | some a => c.ser a
  de | .null => some none | j => (c.de j).map some
  missing := some none
/-- Reading every element; the first error ends the reading. -/
def deList (de : Json → Option T) : List Json → Option (List T)
  | [] => some []
  | j :: js => match de j with
    | none => none
    | some a => (deList de js).map (a :: ·)
/-- `Vec<T>`, `SmallVec<[T; 8]>`. -/
def vec (c : Codec T) : Codec (List T) where
  ser xs := .arr (xs.map c.ser)
  de | .arr js => deList c.de js | _ => none
  missing := none

/-! ## What the derive macros generate -/

/-- A newtype struct `struct N(T)`. -/
def newtype (wrap : T → A) (unwrap : A → T) (c : Codec T) : Codec A where
  ser a := c.ser (unwrap a)
  de j := (c.de j).map wrap
  missing := none

/-- Reading one field from the entries of an object: an error if it is met twice or cannot be read; if it is
missing, what its type says. -/
def deField (name : String) (c : Codec T) (entries : List (String × Json)) : Option T :=
  match entries.filter fun e => e.1 == name with
  | [] => c.missing
  | [e] => c.de e.2
  | _ => none

/-- A struct with one named field. -/
def struct1 (name : String) (mk : T → A) (get : A → T) (c : Codec T) : Codec A where
  ser a := .obj [(name, c.ser (get a))]
  de
    | .obj entries => (deField name c entries).map mk
    | .arr [j] => (c.de j).map mk
    | _ => none
  missing := none

/-- A struct with two named fields. -/
def struct2 (name1 name2 : String) (mk : T → B → A) (get1 : A → T) (get2 : A → B) (c1 : Codec T) (c2 : Codec B) :
    Codec A where
  ser a := .obj [(name1, c1.ser (get1 a)), (name2, c2.ser (get2 a))]
  de
    | .obj entries => match deField name1 c1 entries, deField name2 c2 entries with
      | some x, some y => some (mk x y)
      | _, _ => none
    | .arr [j1, j2] => match c1.de j1, c2.de j2 with
      | some x, some y => some (mk x y)
      | _, _ => none
    | _ => none
  missing := none

/-! ## The types of the crate -/

/-- `Min` (`min.rs` 147-148). -/
def min (c : Codec T) : Codec (Min T) := newtype Min.mk (fun x => x.val) c
/-- `Max` (`max.rs` 151-152). -/
def max (c : Codec T) : Codec (Max T) := newtype Max.mk (fun x => x.val) c
/-- `Sum` (`sum.rs` 192-194). -/
def sum (c : Codec T) : Codec (Sum T) := newtype Sum.mk (fun x => x.val) c
/-- `Product` (`product.rs` 131-132). -/
def product (c : Codec T) : Codec (Product T) := newtype Product.mk (fun x => x.val) c
/-- `First` (`first.rs` 174-176): a newtype around `Option<T>`. -/
def first (c : Codec T) : Codec (First T) := newtype First.mk (fun x => x.val) (option c)
/-- `Last` (`last.rs` 176-177): a newtype around `Option<T>`. -/
def last (c : Codec T) : Codec (Last T) := newtype Last.mk (fun x => x.val) (option c)
/-- `Id` (`id.rs` 248-252). -/
def id (c : Codec T) : Codec (RId T) := struct1 "value" RId.mk (fun x => x.value) c
/-- `Choice` (`choice.rs` 195-199). -/
def choice (c : Codec T) : Codec (Choice T) := struct1 "values" Choice.mk (fun x => x.values) (vec c)
/-- `Writer` (`writer.rs` 197-203). -/
def writer (cw : Codec W) (ca : Codec A) : Codec (Writer W A) :=
  struct2 "log" "value" Writer.mk (fun x => x.log) (fun x => x.value) cw ca
/-- `Maybe` (`maybe.rs` 234-240). -/
def maybe (c : Codec T) : Codec (Maybe T) where
  ser
    | .Just a => .obj [("Just", c.ser a)]
    | .Nothing => .str "Nothing"
  de
    | .obj [("Just", j)] => (c.de j).map .Just
    | .obj [("Nothing", .null)] => some .Nothing
    | .str "Nothing" => some .Nothing
    | _ => none
  missing := none
/-- `Either` (`either.rs` 263-269). -/
def either (cl : Codec L) (cr : Codec R) : Codec (Either L R) where
  ser
    | .Left l => .obj [("Left", cl.ser l)]
    | .Right r => .obj [("Right", cr.ser r)]
  de
    | .obj [("Left", j)] => (cl.de j).map .Left
    | .obj [("Right", j)] => (cr.de j).map .Right
    | _ => none
  missing := none
/-- `Validated` (`validated/core.rs` 138-145). -/
def validated (ce : Codec E) (ca : Codec A) : Codec (Validated E A) where
  ser
    | .Valid a => .obj [("Valid", ca.ser a)]
    | .Invalid es => .obj [("Invalid", (vec ce).ser es)]
  de
    | .obj [("Valid", j)] => (ca.de j).map .Valid
    | .obj [("Invalid", j)] => ((vec ce).de j).map .Invalid
    | _ => none
  missing := none

end Rustica.Serde
