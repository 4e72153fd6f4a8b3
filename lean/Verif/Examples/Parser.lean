import Verif.Data.Choice

/-!
# The parser library of `examples/advanced_parser.rs`

A parser is a function from the input to a `Choice` of results, each with the input that is left.
`Parser::many` contains a `loop` that need not end, so the model of a parser takes a number `n` of loop
rounds it may use: `none` means that `n` rounds were not enough, `some c` that the Rust function returns
`c`.  A parser that is `none` for every `n` runs for ever.

Simplifications: slices of the input are lists; `Rc`, lifetimes and `Clone` bounds are dropped; the
closures handed to the combinators are pure; strings are lists of characters.  `ParseResult`, `main` and
`parser_examples` (prints) are not modelled.
-/

namespace Rustica.Parse

variable {I O B S F LO RO : Type}

/-- `struct Parser<I, O>` (`advanced_parser.rs` 70-76). -/
def Parser (I O : Type) : Type := Nat → List I → Option (Choice (O × List I))

namespace Parser

/-- `Parser::new` (96-103; `parse`, 106-108, is application), for a parsing function without loops. -/
def new (f : List I → Choice (O × List I)) : Parser I O := fun _ input => some (f input)

/-- `Parser::or` (111-121). -/
def or (self other : Parser I O) : Parser I O := fun n input => do
  let firstResult ← self n input
  if firstResult.isEmpty then other n input
  else do
    let second ← other n input
    some (RAlternative.alt firstResult second)

/-- `Parser::and_then` (124-138). -/
def andThen (self : Parser I O) (f : O → Parser I B) : Parser I B := fun n input => do
  let results ← self n input
  results.values.foldlM (fun combined p => do
    let nextResults ← f p.1 n p.2
    some (RAlternative.alt combined nextResults)) Choice.newEmpty

/-- `Parser::apply` (141-155). -/
def apply (funcParser : Parser I (O → B)) (valueParser : Parser I O) : Parser I B := fun n input => do
  let fs ← funcParser n input
  fs.values.foldlM (fun combined p => do
    let vs ← valueParser n p.2
    some (vs.values.foldl (fun combined q =>
      RAlternative.alt combined (Choice.new (p.1 q.1, q.2) [])) combined)) Choice.newEmpty

/-- `Parser::map` (158-170). -/
def map (self : Parser I O) (f : O → B) : Parser I B := fun n input => do
  let results ← self n input
  some (results.values.foldl (fun combined p =>
    RAlternative.alt combined (Choice.new (f p.1, p.2) [])) Choice.newEmpty)

/-- The `loop` of `Parser::many` (178-186), at most `rounds` times. -/
def manyLoop (step : List I → Option (Choice (O × List I))) :
    (rounds : Nat) → (results : List O) → (currentInput : List I) → Option (List O × List I)
  | 0, _, _ => none
  | rounds + 1, results, currentInput => do
    let c ← step currentInput
    match c.values.head? with
    | some (result, remaining) => manyLoop step rounds (results ++ [result]) remaining
    | none => some (results, currentInput)

/-- `Parser::many` (173-190). -/
def many (self : Parser I O) : Parser I (List O) := fun n input => do
  let r ← manyLoop (self n) n [] input
  some (Choice.new r [])

/-- `Parser::many1` (193-202). -/
def many1 (self : Parser I O) : Parser I (List O) :=
  self.andThen fun first => self.many.map fun rest => [first] ++ rest

/-- `Parser::optional` (205-210). -/
def optional (self : Parser I O) : Parser I (Option O) := fun n input => do
  let c ← self n input
  match c.values.head? with
  | some (result, remaining) => some (Choice.new (some result, remaining) [])
  | none => some (Choice.new (none, input) [])

/-- `Parser::sep_by1` (234-251). -/
def sepBy1 (self : Parser I O) (separator : Parser I S) : Parser I (List O) :=
  self.andThen fun first => (separator.andThen fun _ => self).many.map fun rest => [first] ++ rest

/-- `Parser::sep_by` (213-231): the body of `sep_by1`, `or` the empty list. -/
def sepBy (self : Parser I O) (separator : Parser I S) : Parser I (List O) :=
  (self.andThen fun first => (separator.andThen fun _ => self).many.map fun rest => [first] ++ rest).or
    (new fun input => Choice.new ([], input) [])

/-- `Parser::between` (254-266). -/
def between (left : Parser I LO) (right : Parser I RO) (parser : Parser I O) : Parser I O :=
  left.andThen fun _ => parser.andThen fun result => right.map fun _ => result

/-- `Parser::chainl1` (269-285). -/
def chainl1 (self : Parser I O) (op : Parser I (O → O → O)) : Parser I O :=
  self.andThen fun first =>
    (op.andThen fun f => self.map fun val => (f, val)).many.map fun ops =>
      ops.foldl (fun acc p => p.1 acc p.2) first

/-- `Parser::skip` (288-290). -/
def skip (self : Parser I O) : Parser I Unit := self.map fun _ => ()

/-- `Parser::label` (293-296). -/
def label (self : Parser I O) (_label : List Char) : Parser I O := self

end Parser

open Parser

/-- `item` (302-317). -/
def item [DecidableEq I] (expected : I) : Parser I I := Parser.new fun input =>
  match input with
  | first :: rest => if first = expected then Choice.new (first, rest) [] else Choice.newEmpty
  | [] => Choice.newEmpty

/-- `satisfy` (320-336). -/
def satisfy (predicate : I → Bool) : Parser I I := Parser.new fun input =>
  match input with
  | first :: rest => if predicate first then Choice.new (first, rest) [] else Choice.newEmpty
  | [] => Choice.newEmpty

/-- `sequence` (339-350). -/
def sequence [DecidableEq I] (expected : List I) : Parser I (List I) := Parser.new fun input =>
  if input.length ≥ expected.length ∧ input.take expected.length = expected then
    Choice.new (expected, input.drop expected.length) []
  else Choice.newEmpty

/-! ## The SQL reader -/

/-- `struct Condition` (378-382). -/
structure Condition where
  field : List Char
  operator : List Char
  value : List Char
  deriving DecidableEq, Repr

/-- `enum SqlQuery` (355-370), with `struct WhereClause` (373-375) as the list of its conditions. -/
inductive SqlQuery where
  | Select (columns : List (List Char)) (table : List Char) (whereClause : Option (List Condition))
  | Insert (table : List Char) (values : List (List Char))
  | Update (table setClause : List Char) (whereClause : Option (List Condition))
  deriving DecidableEq, Repr

/-- The two Unicode tests used, `char::is_whitespace` and `char::is_alphanumeric`: parameters of the
model. -/
structure CharClass where
  isWhitespace : Char → Bool
  isAlphanumeric : Char → Bool

/-- The test of `word`: `c.is_alphanumeric() || *c == '_'` (401). -/
def CharClass.isWord (cc : CharClass) (c : Char) : Bool := cc.isAlphanumeric c || c == '_'

/-- `whitespace` (395-397). -/
def whitespace (cc : CharClass) : Parser Char (List Char) := (satisfy cc.isWhitespace).many

/-- `word` (400-404). -/
def word (cc : CharClass) : Parser Char (List Char) := ((satisfy cc.isWord).many1).map fun chars => chars

/-- `str::len`: the number of bytes. -/
def byteLen (kw : List Char) : Nat := (kw.map Char.utf8Size).sum

/-- `char::eq_ignore_ascii_case` (`Char.toLower` changes ASCII letters only). -/
def eqIgnoreAsciiCase (a b : Char) : Bool := a.toLower == b.toLower

/-- `keyword` (407-424): the length tested and skipped is the number of bytes of `kw`. -/
def keyword (kw : List Char) : Parser Char (List Char) := Parser.new fun input =>
  if input.length < byteLen kw then Choice.newEmpty
  else if (kw.zip input).all fun p => eqIgnoreAsciiCase p.1 p.2 then
    Choice.new (kw, input.drop (byteLen kw)) []
  else Choice.newEmpty

/-- `select_parser` (427-443, with `struct SelectClause` 385-387 as the list of its columns). -/
def selectParser (cc : CharClass) : Parser Char (List (List Char)) :=
  ((keyword "SELECT".toList).andThen fun _ => whitespace cc).andThen fun _ =>
    ((word cc).andThen fun firstCol =>
      (((item ',').andThen fun _ => whitespace cc).andThen fun _ => word cc).many.map fun restCols =>
        [firstCol] ++ restCols).or
      ((word cc).map fun col => [col])

/-- `from_parser` (446-452, with `struct FromClause` 390-392 as the name of its table). -/
def fromParser (cc : CharClass) : Parser Char (List Char) :=
  ((((whitespace cc).andThen fun _ => keyword "FROM".toList).andThen fun _ => whitespace cc).andThen
    fun _ => word cc).map fun table => table

/-- `operator_parser` (455-461). -/
def operatorParser : Parser Char (List Char) :=
  ((((sequence ['!', '=']).map fun _ => "!=".toList).or ((item '=').map fun _ => "=".toList)).or
    ((item '<').map fun _ => "<".toList)).or ((item '>').map fun _ => ">".toList)

/-- `condition_parser` (464-481). -/
def conditionParser (cc : CharClass) : Parser Char Condition :=
  (word cc).andThen fun field =>
    ((whitespace cc).andThen fun _ => operatorParser).andThen fun operator =>
      ((whitespace cc).andThen fun _ => word cc).map fun value => ⟨field, operator, value⟩

/-- `where_parser` (484-497). -/
def whereParser (cc : CharClass) : Parser Char (List Condition) :=
  (((whitespace cc).andThen fun _ => keyword "WHERE".toList).andThen fun _ => whitespace cc).andThen fun _ =>
    ((conditionParser cc).sepBy
      (((whitespace cc).andThen fun _ => keyword "AND".toList).andThen fun _ => whitespace cc)).map
      fun conditions => conditions

/-- `insert_parser` (500-516). -/
def insertParser (cc : CharClass) : Parser Char SqlQuery :=
  (((((keyword "INSERT".toList).andThen fun _ => whitespace cc).andThen fun _ =>
    keyword "INTO".toList).andThen fun _ => whitespace cc).andThen fun _ => word cc).andThen fun table =>
      ((((whitespace cc).andThen fun _ => keyword "VALUES".toList).andThen fun _ =>
        whitespace cc).andThen fun _ => word cc).map fun value => .Insert table [value]

/-- `update_parser` (519-541). -/
def updateParser (cc : CharClass) : Parser Char SqlQuery :=
  (((keyword "UPDATE".toList).andThen fun _ => whitespace cc).andThen fun _ => word cc).andThen fun table =>
    ((((whitespace cc).andThen fun _ => keyword "SET".toList).andThen fun _ =>
      whitespace cc).andThen fun _ => word cc).andThen fun setClause =>
        (whereParser cc).optional.map fun whereClause => .Update table setClause whereClause

/-- `sql_query_parser` (544-562). -/
def sqlQueryParser (cc : CharClass) : Parser Char SqlQuery :=
  (((selectParser cc).andThen fun columns =>
    (fromParser cc).andThen fun table =>
      (whereParser cc).optional.map fun whereClause => .Select columns table whereClause).or
    (insertParser cc)).or (updateParser cc)

/-! ## `ParseError` -/

/-- `struct ParseError` (18-23). -/
structure ParseError where
  message : String
  position : Nat
  expected : Option String
  found : Option String
  deriving DecidableEq, Repr

/-- `ParseError::new` (43-50). -/
def ParseError.new (message : String) (position : Nat) : ParseError := ⟨message, position, none, none⟩
/-- `with_expected` (52-55). -/
def ParseError.withExpected (e : ParseError) (expected : String) : ParseError :=
  { e with expected := some expected }
/-- `with_found` (57-60). -/
def ParseError.withFound (e : ParseError) (found : String) : ParseError := { e with found := some found }

/-- `Display for ParseError` (25-40). -/
def ParseError.text (e : ParseError) : String :=
  "Parse error at position " ++ toString e.position ++ ": " ++ e.message ++
    (match e.expected with | some x => " (expected: " ++ x ++ ")" | none => "") ++
    (match e.found with | some x => " (found: " ++ x ++ ")" | none => "")

/-- ASCII versions of the two character tests. -/
def ascii : CharClass where
  isWhitespace c := c == ' ' || (9 ≤ c.toNat && c.toNat ≤ 13)
  isAlphanumeric c := c.isAlphanum

end Rustica.Parse
