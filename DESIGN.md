# Formal model of `rustica`: design

This directory holds a Lean 4 model of the Rust library in `/repo` and proofs of
the properties listed in `properties.jsonl`.  `MANIFEST.json` maps every property
to the theorems that establish it.

## 1. How the code is modelled

* Rust values become plain Lean data; `&mut` methods return the new value; `Arc`,
  `Box`, references and `clone()` are identities (sharing is unobservable because
  the shared data is immutable).
* `Vec`, `SmallVec`, slices and iterators become `List`; `usize` becomes `Nat`
  (allocation failure is outside the model; for vectors, `PVec/Machine` repeats the
  functions that add lengths with words of limited size, see C85).
* `Result`/`Option` stay data.  A panic that the API can reach is an explicit
  value of the model's result type, or the panic condition is a separate,
  explicit precondition with a theorem that says exactly when it holds.
* Loops become structural recursion or folds in the order of the Rust loop.
* Closures are Lean functions.  Where call order, call count or laziness is the
  point, the closure is an effectful function in an explicit trace/panic monad.
* Threads are labelled transition systems: a state, one transition per atomic
  step (lock acquisition, read, write, ...), and theorems about every reachable
  state (invariants by induction on the run).

Each definition carries a comment with file and lines in `/repo`.  Specifications
are written separately from the model (ordinary list functions, textbook laws).

When a property is *false of the code*, the model follows the code: the negation
is proved with a concrete witness built through the public API, and the strongest
true version is kept in a theorem whose name ends in `_partial`.

## 2. Plan per property

| id | model | proof |
|----|-------|-------|
| C01 | `Node`/`Tree`/`PV` (RRB node, tree with prefix and suffix buffers, vector) | chunking lemmas, induction over levels of `build_tree_recursive`, `get` refines `List.get?` |
| C02 | `Node.update`, `Tree.update`, `PV.update`, `try_update` | refinement to `List.set` for every intact vector (every recorded length right); false for damaged ones: witness; `c02_update_all`: for every reachable vector, panics included, what `update` does in terms of what `get` answered before; `c02_update_iff`: on a vector that no call makes panic, the claim holds exactly when every index below `len` has an element |
| C03 | `push_leaf`, `push_front_leaf`, `push_tail_to_tree`, ... | refinement to `++ [x]` / `x ::` for every intact vector; false for damaged ones: witness; `c03_push_front_all`: `push_front` is right on every reachable vector whose counts are not too small for its buffers; `c03_push_back_iff`: the exact condition for `push_back` |
| C04 | histories over a pool of versions | invariant + refinement by induction over the history; `Guarded`: all histories in which no call meets one of the damaging conditions keep the vector intact. `Legible`: histories with any bad cuts, but without a pop at a stale end, leave a vector that reads as one sequence followed by a gap of positions without element (`Legible.c04_reads`; `c04_reads_false` shows that the condition on pops is needed); then programs over all operations with a condition per call that is tested at run time: exact per call (`c04_call_iff`), whole programs (`c04_program`), first wrong call (`c04_first_wrong`); `c04_labels`: what a program of element-moving calls does is determined by its run on the numbers 0, 1, 2, ... (the operations commute with replacing elements, `PVec/Over.lean`) |
| C05 | `concat` and its helpers | false in general (operands are swapped when the left height is smaller): witness, plus exact characterisation; the recorded height of the result (`c05_concat_height`) and chains of concatenations (`c05_concat_chain_partial`) |
| C06 | `pop_back` | false after `push_front` fills only the prefix buffer: witness, exact condition for every intact vector (`c06_pop_back_iff`; damage: `c06_pop_back_intact`), full refinement for the stack-like class of histories |
| C07 | `pop_front` | false when the suffix buffer is reached with 3 or more elements: witness, exact result and exact conditions for every intact vector (`c07_pop_front_exact`, `_iff`, `_intact`); `c07_drain_exact` and `c07_drain_iff`: the order in which emptying a collected vector delivers its elements, and exactly when that is their order |
| C08 | `split_at`, `take`, `skip` | false when recorded height is below the real depth: witness, exact conditions for either half of every intact vector (`c08_split_iff`, `_correct_iff`, `_intact`, `_damage`), full refinement for the class of histories that keeps heights accurate; whether joining the parts undoes a cut (`c08_part_heights`, `c08_rejoin_iff`, `_buffers`, `_false`) |
| C09 | `insert`, `remove` | false (through concat): witness, partial; for every intact vector reduced to the condition of the cut and of the concatenation (`c09_insert_iff`, `c09_remove_iff`, and without side condition `c09_insert_exact`, `c09_remove_exact`); inside the front buffer the result is given outright (`c09_insert_front_buffer`) |
| C10 | derived `==` (structural) | first half false: witness; second half proved; exact condition for intact vectors (`c10_equality_iff`: same contents and same representation); partial: vectors built by the same constructor, and versions of the same program run with different elements (`c10_layout`, `c10_same_program_partial`) |
| C11 | iterator state machine | induction over `next` calls; for every vector value, what comes out in terms of `get` (`c11_collect`) and exactly when that is `len` elements (`c11_count_iff`) |
| C12 | `fold`, `fold_left`, `fold_right` | refinement to `foldl`/`foldr`; for every vector value, which elements each fold visits (`c12_folds_all`) and exactly when they agree (`c12_folds_iff`, `c12_length_iff`) |
| C13 | derived operations | refinement to list functions, independent specs for dedup/chunk/sorted |
| C14 | laws on contents | functor laws proved; identity laws proved; associativity false through C05: witness, and the exact condition in terms of heights (`c14_associative_iff`) |
| C15 | generation counter in `Nat` and bound | induction over histories |
| C58 | `Checked.lean`: the operations with every panic explicit | false (history with `pop_back` after other removals): witness; invariant "buffers fit into the recorded length" for all other histories; then for every reachable vector the exact panic condition of each operation (`c58_panics_iff`) and of all together (`c58_never_panics_iff`); panics do not depend on the elements (`c58_elements`) |
| C59 | instrumented `get_from_tree` loop count (`Node.visits`) | false: exact linear count after n `push_back`s; logarithmic for `from_iter`; for every call history, one level per 1984 pushes and three per `concat` at most (`c59_calls_partial`, by a potential function) |
| C60 | capacity predicate parametric in the child bound | leaves proved for all histories; child bound false through `concat_nodes`: unbounded family, partial without concat; with concat the widths of the operands add, so `k` joined vectors have at most `32 k` children per node (`c60_concat_width`, `c60_children_joins_partial`) |
| C61 | inductive `Tabled` relation | from the invariant of reachable vectors; `Theorems/Regular` says what the code for branches without a table, which never runs, would do, with two latent defects (`c61_fallback_latent`, `c61_adjusted_latent`) |
| C62 | `ReadsHeld`, `TryIsSafe`: a held value per type | case analysis; negation for six types with default `try_value` |
| C63 | iff-characterisations by constructor | case analysis |
| C64 | list functions (`findSome?`, `sum`, `prod`, extremum) | induction on the list, generalised accumulator |
| C65 | `pull next s k`: result of the k-th call | induction on k |
| C66 | world-passing equations for code that may panic | unfolding; what runs and what no longer runs when an operand or closure panics (`c66_panics`) |
| C67 | `Fut.Settles` under every schedule | induction on the list of futures; calls that write to one log: all their entries once, each call's in order (`c67_shared_log`); a panic of one call comes out (`c67_panics`) |
| C68 | laws over lawful instances | from the law structures of `Spec/Laws.lean` |
| C69-C73 | `Calls/Model`: the methods that take a closure, with closures that have effects and may panic | `Spec/Calls` states the call sequences with explicit worlds (`calls`, `passes`, `callsUntil`); loops are reduced to one list of arguments, the rest is case analysis; `fold_option` short-circuit and `Prism::modify` "always called" false: witnesses + exact logs |
| C74 | `Data/Text`: hand-written `Display`/`Debug` as functions to text | cancellation, cutting at the first blank or non-digit; ambiguous formats get witnesses and the exact side condition |
| C75 | `Traits/Abstract`: traits without instances as classes | equational, for every lawful instance |
| C76 | histories with the elements put in (`Made`), no exclusions | `Within` (part of a permutation) kept by every operation, from accurate size tables only; reading is through increasing stored positions. False for `pop_back`: witness |
| C77 | parser combinators of `examples/advanced_parser.rs` | a parser takes a bound on its loop rounds, `Ends p i xs` = the call returns the parses `xs`; each combinator gives the list comprehension it stands for; monad and functor laws; nothing outside the input comes back |
| C78 | `many` of the same file | `Greedy` (inductive, independent of the loop): returns exactly the greedy repetition; runs for ever exactly when it reaches an input on which the parser succeeds without consuming; ends on every input for consuming parsers |
| C79 | the SQL reader of the same file | a grammar (`Sql`, inductive, any case, any white space) says which texts stand for a query; every such text is read back as that query with nothing left; every parse returned is a text of its query (`Takes`, the same grammar with optional white space); printing and reading back. Assumed of the two Unicode tests: `CharClass.Ok` (white space is no word character, ASCII letters are, `, = ! < >` are neither). False: what is not understood is dropped silently |
| C80 | the replacements that `MIGRATION_v0.11.0.md`, `examples/choice_migration_v0_11_0.rs` and the deprecation notes give for each deprecated method | the replacement code is modelled as written (`Examples/Migration.lean`), with its constants as arguments; per method either equality on all inputs or the exact condition for equality (`_iff`) with a witness, mostly the guide's own example, where it fails (`_false`) |
| C81 | `examples/error.rs`: `parse_config`, `connect_db`, `process_data`, the two pipelines, the bulk context example | number reader a parameter; case analysis on the reading of the text; the order of contexts by induction over sequences of contexts given to the pipeline or to the error inside it, exact condition (`_iff`) with the example's own text as witness (`_false`) |
| C82 | every function in `tests/` that is handed to QuickCheck, with its test types and their generators; bounded integers, overflow a panic | one definition per test over the model of the code under test; a theorem per test file for all inputs, the exact discard condition included; the tests over `TestBifunctor` under the bound its generator and shrinker keep, and a panic without it |
| C83 | the eleven `Arbitrary` implementations, `Maybe::shrink` | a generator is a function of the random state; full for `Id`, `Maybe`, `Either`, `Writer`, `Choice`; for `Validated`, `Reader`, `State`, `Cont`, `IO`, `AsyncM` the exact set of values that come out, and a value that does not (`_false`); shrinking by well-founded induction |
| C84 | the serde derives of twelve types, as functions to and from JSON trees | case analysis per type under the round trip of the contents; a universe of all types built from them, and by induction the exact condition on the type (`_iff`) with `First(Some(()))` as witness (`_false`) |
| C85 | `push_back`, `push_front`, `extend`, `insert`, `remove`, `concat` and the size tables below them with checked additions for words of `W` values; programs over all calls; the memory that calls allocate | equality with the unlimited model by induction on nodes while the lengths fit (`_iff` on intact vectors); a measure that every call respects gives `supplied * 2^concats` as bound for all programs (`_partial`); a program of 780 calls that raises the root and doubles, with weights of the two edges of the tree for its memory, as witness |
| C86 | the derived `cmp` and `partial_cmp` of all types, variants in the order of declaration | comparison functions closed under pairs, slices and injections; induction on nodes; a dictionary order stated with common beginnings as specification; vectors: false (witnesses), the exact order of collected vectors and of vectors with one layout; conversions: false (witnesses) with exact conditions (`_iff`) |
| C87 | iterators with their size hints, buffers with capacities, an allocator that refuses more than `limit` elements: `Choice::new`, `of_many`, `invalid_many`, `invalid_vec`, `filter_map`, `filter_map_collect`, and the capacities `bind`, `lift2`, `lift3` compute | the contract of `size_hint` and room for twice the items as hypotheses; induction over the pushes; `invalid_many`: false (it reserves the upper bound), exact condition |
| C88 | an integer type as its range; `Sum` and `Product` `combine`, the folds over them, with overflow as a panic and with wrapping | bracketings as trees with leaves in any order; exact sum and product as specification; false for signed sums and for products (`(MAX + 1) + (-1)`, `(MAX * 2) * 0`), true for one sign, for factors of at least 1 and for wrapping; the down-closedness of powers for `power` |
| C89 | `PVec/Heap`: the functions of `node.rs`, `tree.rs` and `core.rs` once more with an `Arc` as an address and `Arc::new` as the next free cell | a relation `Shows` between addresses and the nodes of the value model, carried through every function together with a set of allowed addresses and a count of new cells; programs by induction; sharing by choosing the set "new, or reachable from an operand"; the count for `update` against the lookups of C59 |
| C90 | `Data/Compare`, `PVec/Compare`: the functions that compare elements, with the comparison as an argument in the operand order of the source | contracts as structures `PartialEqLaws`, `EqLaws`, `PreordLaws`; vector `==` as the existence of one vector of equal pairs, so that naturality (`over`) carries every observation; run heads with uniqueness for `dedup`; maps observed by `find?` up to `eq`; agreement with the older definitions when `==` is identity |
| C91 | `Effect/MemoUse`: programs of one thread over any number of memoizers, as trees whose closures are again such programs, with `catch_unwind` | a log of the memoizers called makes "the closure calls `m`" precise; one frame lemma by induction on the program (holding the lock of `m` changes nothing for a program that does not call `m` and stops one that does) gives transparency and the exact condition for returning; separate inductions for cached values, poison and released locks |
| C92 | `Calls/Clones`: the methods of the containers with `Clone::clone` of the element types as an arbitrary action (`class RClone`), statement by statement | "does not clone" is equality with the method of `Calls/Model`, which has no `Clone` argument; "clones what it keeps" is a separate action `kept` followed by that method; a counting `Clone` and a Hoare-style rule for sequences, maps and folds give the exact numbers where the claim is false |
| C93 | `PVec/Cloned`: the functions of `node.rs`, `tree.rs` and `core.rs` once more with a log of the elements on which `T::clone` is called | every logged function returns what the function of `Core` returns (`c93_returns`); the width of nodes and buffers along every program of calls (`Within` of C60) bounds what a clone of a node, a buffer or a whole tree costs; the log of collecting is computed exactly; concrete vectors reach the bounds; what is logged was held by the vector (`c93_only_held`), by walking every logged function once more |
| C94 | `Effect/Depth`: the operations with the greatest number of stored closures active at once (`Run A`: value and depth) | lower bounds by induction on the length of the chain for every start and all functions (`Grows`), exact counts where the functions need no stack of their own; upper bounds for the types that are data (`Flat` in the form `≤ K`); the values are those of the models without depth (`c94_values…`) |
| C95 | `Calls/FoldClones`: `Foldable` and `FoldableExt` with `Clone::clone` as a call | fold instances are one of two kinds (`FoldsCloning`, `FoldsSparing` in `Spec/FoldClones`); every helper is then a loop over the elements, whose clones are added up by induction; counterexamples for `to_vec` and `fold_map` into `Vec` from the exact counts |
| C96 | `PVec/Frames`: the functions of `node.rs`, `tree.rs` and `core.rs` once more with the greatest number of recursive node functions active at once, and the drop glue of nodes | every counted function returns what the function of `Core` returns (`c96_returns`); by induction on nodes no function nests deeper than its node, `concat_nodes` two more; the levels that the calls have paid for (`Costs` of C59) bound the depth of the root; collected vectors exactly (`c96_from_iter_exact`), vectors made by `push_back` exactly, from the spine they form (`c96_push_back_exact`), which refutes the logarithm (`c96_log_false`) |
| C97 | the four calls of `Core` at the ends; `play` makes them in order on a vector, `playList` on a list (the specification) | a stack at the back keeps the vector `Stack` (C06); a stack at the front keeps the suffix buffer empty and no empty leaf before a full one (`Lead`, preserved by `pop_front` and `push_front_leaf`); up to 64 elements the vector stays inline.  Queues with more fail: what a filled queue gives back, exactly in both directions (`c97_drain_exact`, `c97_drain_iff`, `c97_reverse_queue_exact`), that it is right while it keeps more than 64 elements (`c97_long_queue_partial`), and the exact loss for every emptied tree vector (`c97_emptied_queue_loses`); the same for queues that start from `from_iter` (`c97_collected_exact`, `c97_collected_iff`, `c97_collected_queue_partial`) |
| C98 | `Iter.collectVisits`: the loop of `Iter.collect` with the nodes read by each `next` (those of its `get`, C59) | the iterator keeps nothing between items, so the count is the sum over all positions (`c98_each`); the whole shape of what `push_back` builds (`Spine`) gives every position's count and the sum; bounds for other histories follow from C59 |
| C99 | `Node.scanCount`, `Node.entries`: the loops of `find_child_relaxed` and `get_from_tree` with the size-table entries looked at | at most the width of each branch passed (`c99_width`), so C59 and C60 give bounds by calls; exact counts after `push_back`s (`Spine`, C98) and after joining equal vectors, where the root gets one child per join |
| C100 | `Node.nodes`, `PV.nodes`: the nodes of the tree, a shared node counted at each of its places | call by call: taking away adds no node, a push at most two, a join six and the difference of the recorded heights (`c100_calls_partial`); without `concat` and without taking away, one node per 32 elements (`c100_grown_partial`); with `concat` but without taking away, three times the square of the length (`c100_joined_partial`: height, depth and nodes carried together), which is the right order: pushing one element and joining with one adds a node for every recorded level (`Bare.step`, `c100_joined_square`, `c100_joined_no_bound`); `take` cuts the tree of pushed leaves to a chain as deep as the tree (`Spine.cut`), so no bound by the length exists, nor one for the nodes read, the nesting, the entries or the cells of an update (`c59_no_bound`, `c89_no_bound`, `c96_no_bound`, `c98_no_bound`, `c99_no_bound`) |
| C101 | dropped futures: `Fut.segments n`, the world after the first `n` segments | induction over the first future for sequences, over both futures and the schedule for joins (parts on disjoint worlds: exact split `c101_joined`; parts on a shared world: containment for any preorder `c101_prefix`); building: case by case, false for two pure values (`c101_eager`), `c101_unawaited_partial` for the rest |
| C102 | `calls` of `PVec/Frames`: how many calls of the counted functions of C96 an operation makes in all | by induction on nodes with exact size tables (C61) `calculate_size` is one call, going down a path one to four calls per level, splitting and joining one call per child of each branch on the way; with the levels paid for (`Costs` of C59) and the vectors joined in (`Joins` of C60) a bound for every history (`c102_ends_partial`, `c102_calls_partial`); `from_iter` two calls per leaf (`c102_from_iter_partial`); `update` exactly the nodes a lookup reads (`c102_update_exact`); `push_back` exactly on what `push_back` built (`c102_push_back_exact`), summed up (`c102_extend_square`), which refutes the logarithm (`c102_log_false`, `c102_extend_false`); `concat` and `split_at` exactly on flat trees (`c102_concat_exact`, `c102_split_exact`, `c102_concat_false`, `c102_split_false`); the pops exactly, three and four calls per node on the way (`c102_pop_front_exact`, `c102_pop_back_exact`), the pushes for every vector (`c102_push_exact`); for `extend` of any vector by induction on the new elements with the elements waiting in the tail counted in, so that one walk is paid by 64 of them |
| C103 | the methods of `Calls/Clones` (every `clone` a call); a program is a tree of steps (`Spec/LogClones`), run with `bind`, `lift2`, `combine` or their owned forms | by induction on the tree: with the methods that borrow an entry is cloned once for each join it is below (`c103_exact`), with the owned ones never (`c103_owned`); for one step after the other this is quadratic (`c103_chain_exact`); for every tree `n * (k + 2) <= clones + 2^(k+1)` by induction, which at `k = log2 n` gives `n * log2 n` as a lower bound for all programs (`c103_least`, `c103_linear_false`), met by halving (`c103_halved_exact`); `sequence` clones each error once (`c103_sequence_partial`) |
| C104 | `Trans/Clones`: `ReaderT`, `Reader` and `State` with every `clone` a call | a program is a tree whose `andThen` chooses the next part by the value (`Spec/EnvClones`); by induction on it the clones made by a run are the number of `bind`/`combine`, or `get`/`put`/`pure`, that run (`c104_reader_exact`, `c104_state_exact`), for `ReaderT` a multiple of it (`c104_reader_t_exact`, `c104_reader_option_exact`, `c104_with_exact`), hence `c104_reader_t_false`, `c104_reader_t_iff`; the values are those of the model without clones (`c104_plain`) |
| C105 | `Effect/IOClones`: `IO` with every `clone` a call | a program is a tree (`Spec/IOClones`) for which the clones made when it is put together and when it is run are counted by recursion; induction on it shows that the methods make just these (`c105_exact`), and that they are none if and only if no `pure` runs (`c105_iff`); with a `clone` without effects the methods are those of `Effect/IO` (`c105_plain`) |
| C106 | `Predicate` of `Calls/Model` (closures with effects); the parts write down that they are asked | an expression is a tree with a lazy reading (`Spec/Asking`); by induction on it `contains` asks just the parts of that reading (`c106_exact`), which are a sublist of those written (`c106_once`, `c106_distinct`); for a list of predicates up to the first yes (`c106_union_all`, `c106_union_none`); the same with a part that panics but is not asked (`c106_not_asked`) |
| C107 | `Effect/AsyncClones`: `AsyncM` with every `clone` a segment of its future | a program is a tree (`Spec/AsyncClones`) for which the clones made when it is put together and when it is run are counted by recursion, for the methods that borrow and for those that take; induction on it, with one lemma for joins under every schedule, shows that the methods make just these (`c107_exact`); then the two counts are compared; with a `clone` without effects the methods run alone are those of `Effect/Async` (`c107_plain`) |
| C108 | `Trans/ContClones`: `ContT` and `Cont` with every `clone` a call and continuations that may do anything | a program is a tree (`Spec/ContClones`) whose value and clones are computed by recursion; induction on it, for every continuation, shows that a run is these clones and then one call of the continuation (`c108_exact`, `c108_cont`); with a `clone` without effects the methods are those of `Trans/ContT` (`c108_plain`) |
| C109 | `Trans/StateTClones`: `StateT` with every `clone` a call | a program is a tree (`Spec/StateTClones`) whose value and clones are computed by recursion from the state; induction on it shows that the methods over `Option` make just these (`c109_exact`), that a chain of `modify` makes none (`c109_chain`), and what the other variants cost (`c109_lifted`, `c109_variants`); the methods of `Trans/StateT`, put together in the same way, give the same values (`c109_plain`) |
| C16, C17, C18, C20 | every semigroup/monoid instance | algebra; Min/Max identity false: witness + partial |
| C19 | `combine_n`, `combine_n_owned`, `repeat`, `power` | induction on n; `combine_n_owned` false: witness + exact value |
| C21 | maps as association lists with distinct keys, merge as a fold over an arbitrary enumeration order | key-wise characterisation, permutation invariance |
| C22 | default methods of `FoldableExt` | list specs |
| C23-C26 | instance by instance | case analysis; failing instances get witnesses and partials |
| C27, C28 | `Validated` | list induction |
| C29, C30 | conversions | case analysis; C29 second direction false: witness + partial |
| C31-C33 | `ComposableError`, `ErrorPipeline` | induction over call sequences; C32 false after recovery: witness + partial |
| C34, C35 | utils | list induction; call traces in a writer of calls |
| C36-C41 | State, StateT, Reader, ReaderT, Cont, ContT, Writer | function extensionality; failing laws get witnesses |
| C42, C43 | `IO` in a trace-and-panic semantics | structural reasoning |
| C44 | transition system for `new_async` runners | false: witness schedule; partial for sequential runs |
| C45 | `AsyncM` | result semantics plus interleaving of joined parts; parts that share a log: exactly the interleavings (`c45_shared_log`, `c45_shared_iff`) |
| C46 | transition system for the memoizer | inductive invariant over all schedules |
| C47-C49 | optics | equational reasoning |
| C50 | `Choice` | list specs, exact panic conditions |
| C51-C56 | category, predicates, comonad, bifunctor, monad error, WithError | equational; Maybe's `fmap_error` false |
| C57 | ownership-token model of `ReaderT::bind` | false: witness double drop; partial for plain data |

## 3. Trusted base

* The Lean kernel (4.33.0) and the axioms `propext`, `Classical.choice`,
  `Quot.sound` (no other axiom is used; no `sorry`, `native_decide`, `bv_decide`).
* The faithfulness of the model to the Rust text, as documented by the comment on
  each definition.
* Assumptions on type parameters, stated where used: `Clone` returns an equal
  value, `PartialEq`/`Ord` of element types are lawful.

* Facts about code outside the repository that the model takes as given:
  standard-library collections behave as documented (`Vec`, `SmallVec`, `BTreeMap`
  as sorted association lists, `HashMap`/`HashSet` as association lists with an
  arbitrary iteration order, stable `sort`), `futures::join_all` polls its
  futures under some schedule, `catch_unwind` catches the modelled panic,
  `RwLock`/`Mutex`/`OnceLock` operations are atomic steps, tokio timers are not
  observable, `std::ptr::read` makes a bitwise copy (see C57).  For C82 and C83:
  integer arithmetic panics on overflow (the debug profile that `cargo test` uses),
  a QuickCheck generator is a function of a random state, and the integer shrinker
  of the crate does not leave the magnitude of its argument (a hypothesis of
  `c82_test_bifunctor_generator`).  For C84: what the serde derive macros generate
  and how `serde_json` reads and writes it is as described in `Data/Serde`.  For C85:
  the memory of a call is counted from the allocations in its source, as described in
  `PVec/Machine` (an `Arc` clone allocates nothing).  For C86: what `derive(PartialOrd, Ord)` generates is as
  described in `Data/Ord`.  For C87: how `SmallVec` and `Vec` reserve and grow, and the size hints of `vec`, ranges,
  `take_while` and `from_fn`, are as described in `Data/Hints`.  For C88: integer `+` and `*` panic when the exact
  result is out of range, or reduce it to the range when overflow checks are off; floating point is not modelled.
  For C89: `Arc::new` takes a cell that no live `Arc` points to, cloning an `Arc` copies the pointer, and nothing writes
  through a shared `Arc` (there is no `make_mut`, `get_mut`, `RefCell` or `unsafe` in `src/pvec`).  Freeing is not
  modelled: temporary nodes count as taken.  For C90: a set keeps the element it has when an equal one is inserted, an
  occupied map entry keeps its key, and `slice::sort` is stable (all documented by the standard library).  For C91:
  acquiring an `RwLock` that the same thread holds for writing never returns (documented as "might panic or deadlock";
  the model blocks), and dropping the write guard while a panic unwinds poisons the lock.  For C92:
  `Vec::clone`, `iter().cloned()` and the derived `Clone` of an enum or struct clone the elements one after another, in
  order, and nothing else; a cloned key of a map is the same key.  For C93: cloning a `SmallVec` or `Vec` calls
  `T::clone` once for every element, cloning an `Arc` never, and a clone equals its original.  For C94: a call through
  `Arc<dyn Fn>`, `Rc<dyn Fn>`, `Box<dyn Fn>` or the poll of a boxed future keeps a frame until it returns (no tail
  calls); direct calls are not counted; futures are ready when polled.
  For C95: as for C92; `usize` and `bool` are `Copy` and cost no call.  For C96: the compiler makes no loop of the
  recursive functions; dropping the last `Arc` of a node drops its fields within that call.  For C102: copying the child
  lists and size tables, and the loops over them, are not counted (only calls are).  For C103,
  C104 and C105: as for C92; cloning an `Arc` of a closure calls no `Clone` of the user, and a moved value is not cloned.
  For C107 as well; the clones of closures given to `fmap`, `bind` and `zip_with` of `AsyncM` are not counted.
  For C108 as well; the clone of the `Arc` of a function given to `pure` counts like that of a value.  For C109 as
  well; the functions given by the user (`map_fn`, `bind_fn`, …) are those of `Option`.
* Effectful closures are modelled as deterministic functions of an explicit state.
  Rust closures of kind `Fn` with interior mutability are covered, because the
  state may be any type.

The axioms of every theorem named in `MANIFEST.json` can be printed with
`#print axioms`; all are among the three above.

## 4. What is modelled

| Rust source | Lean modules |
|-------------|--------------|
| `pvec/{node,tree,core,iter,traits,error}.rs` | `PVec/Node`, `PVec/Tree`, `PVec/Core`, `PVec/Api`, `PVec/Eq` (derived equality), `PVec/Ord` (derived ordering), `PVec/Checked` (the same operations with every panic explicit), `PVec/Machine` (lengths as machine words, memory) |
| `traits/{semigroup,monoid,functor,applicative,monad,monad_plus,alternative,foldable,bifunctor,comonad,pure,identity,evaluate,monad_error}.rs` | `Traits/Classes`, `Traits/Helpers`, `Traits/Evaluate`, and the instances in `Data/*` |
| `traits/{iso,arrow,category}.rs`, `category/function_category.rs`, `datatypes/{lens,prism,iso_lens,iso_prism}.rs` | `Optics/*` |
| `datatypes/{maybe,either,id,writer,choice}.rs`, `datatypes/validated/*`, `datatypes/wrapper/*` | `Data/*` |
| `datatypes/{state,reader,cont}.rs`, `transformers/*` | `Trans/*` (State and Reader are the transformers over `Id`, as in the code) |
| `datatypes/{io,async_monad}.rs`, `datatypes/wrapper/{memoizer,thunk}.rs` | `Effect/*` |
| `error/*` | `Error/*` |
| `utils/*` | `Utils/*` |
| the closure-taking methods of `traits/*`, `datatypes/*` and `pvec/*` once more, with effectful and panicking closures | `Calls/Model` (agreement with the pure definitions: `FunctorCalls.fmap_pure`, `c71_pure`, `c72_*`, `c73_pure`) |
| hand-written `Display`/`Debug` implementations | `Data/Text`, `Error/Types` |
| `examples/advanced_parser.rs` | `Examples/Parser` |
| the replacement code in `MIGRATION_v0.11.0.md` and `examples/choice_migration_v0_11_0.rs` | `Examples/Migration` |
| `examples/error.rs` | `Examples/ErrorPipeline` |
| the serde derives | `Data/Serde` |
| the derived `Ord` and `PartialOrd` | `Data/Ord`, `PVec/Ord` |
| size hints and reserved room | `Data/Hints` |
| `Sum` and `Product` once more, over machine integers | `Data/Numbers` |
| the vector once more, with its nodes in memory | `PVec/Heap` |
| the functions that compare elements, for any comparison | `Data/Compare`, `PVec/Compare` |
| `datatypes/wrapper/memoizer.rs` once more, one thread with closures that use memoizers themselves | `Effect/MemoUse` (agreement with `Effect/Memoizer`: `c91_agree`) |
| `ReaderT`, `Reader`, and the `State` that `State::new` makes once more, with `Clone::clone` as an action | `Trans/Clones` (agreement with `Trans/ReaderT` and `Trans/StateT`: `c104_plain`) |
| `pure`, `new`, `run`, `fmap`, `bind`, `apply`, `combine`, `sequence` and `Clone` of `IO` once more, with `Clone::clone` as an action | `Effect/IOClones` (agreement with `Effect/IO`: `c105_plain`) |
| `pure`, `new`, `try_get`, `fmap`, `bind`, `apply`, their owned forms, `zip_with`, `from_result_or_default` and `recover_with` of `AsyncM` once more, with `Clone::clone` as an action | `Effect/AsyncClones` (agreement with `Effect/Async`, but for the joins: `c107_plain`) |
| `pure`, `run`, `fmap`, `bind`, `apply`, `call_cc` of `ContT` and `Cont` and `lift` once more, with `Clone::clone` as an action | `Trans/ContClones` (agreement with `Trans/ContT`: `c108_plain`) |
| `new`, `run_state`, `get`, `put`, `modify`, `fmap_with`, `bind_with`, `combine_with`, `pure`, `apply` on two effects, `join` and `lift` of `StateT` once more, with `Clone::clone` as an action | `Trans/StateTClones` (the programs of C109 give the same with `Trans/StateT`: `c109_plain`) |
| the container methods of C16-C28 and C69 once more, with `Clone::clone` as an action | `Calls/Clones` (agreement with `Calls/Model` for an effect-free clone: `c92_plain`) |
| `pvec/node.rs`, `pvec/tree.rs`, `pvec/core.rs` once more, with a log of the elements cloned | `PVec/Cloned` (agreement with `PVec/Core`: `c93_returns`, `c93_returns_rebuilt`) |
| `pvec/node.rs`, `pvec/tree.rs`, `pvec/core.rs` once more, with the nesting and the number of the recursive calls | `PVec/Frames` (agreement with `PVec/Core`: `c96_returns`) |
| chains of `State`, `StateT`, `Reader`, `ReaderT`, `ContT`, `IO`, `AsyncM`, `Predicate`, function morphisms, `Writer`, `ErrorPipeline`, `Maybe`, `Validated`, `Choice` once more, with the nesting of calls | `Effect/Depth` (agreement: `c94_values`, `c94_values_cont`, `c94_values_rest`, `c94_values_async`, `c94_values_transformers`) |
| `Foldable` of `Vec`, `Option`, `Result`, `Validated`, `Id`, `Choice`, `PersistentVector` and the helpers of `Foldable`/`FoldableExt` once more, with clones as calls | `Calls/FoldClones` (agreement: `c95_plain`, `c95_no_clones`) |
| the property tests of `tests/`, the `Arbitrary` implementations of `src/` | `Tests/QuickCheck`, `Tests/Generators` |
| `traits/{contravariant_functor,natural_transformation,traversable}.rs` | `Traits/Abstract` |

`Verif/Conformance/*` replays unit tests of the repository on the model (vectors,
`Choice`, `Maybe`, `Either`, `Validated`, `Id`, `Wrapper`s, `Writer`, `Reader`,
`ReaderT`, `StateT`, `Cont`, `IO`, `AsyncM`, errors, optics, `utils`) and, in the `Doc*` files,
the examples in the documentation comments (vectors, `Choice`, `Validated`, `Maybe`, `Either`,
`State`, `StateT`, `IO`, `Writer`).  These are checks of the
model's faithfulness, not proofs, and no property refers to them.

Not modelled:

* Derived `Debug` output and the `Formatter` options (width, `{:#?}`);
  `Clone` and `Drop` glue
  (except C57, C96), benches.  Of the examples, what `readme.rs` and
  `identity_migration_v0_11_0.rs` assert or print is only replayed
  (`Conformance/Examples.lean`); the others are modelled.
* Trait declarations without code: `Profunctor`, `Representable`,
  `SafeComonad::is_extract_total`.
* Marker types of `traits/hkt.rs` and `PureType`.
* Allocation other than as in C85, C87 and C89, time (`IO::delay` only as an effect that yields its value), poisoned
  locks other than as stated in the memoizer model; lengths above `usize::MAX` other
  than those of vectors (C85); the depth of the call stack other than as in C94 and C96.
* Blanket conversions that only rename (`into_inner`, `AsRef`, `From` to the same
  field) are modelled once per type, not once per borrow mode.

## 5. Where the code does not do what the property says

Each line has a machine-checked witness (`…_false`), and a theorem that says what
the code does instead.

| property | what happens | witness |
|----------|--------------|---------|
| C02, C03, C11, C12 | a vector damaged by `split_at` after `concat`, or by `pop_back` on an exhausted tail, has wrong recorded lengths: updates, pushes, iteration and folds go wrong | `c02_update_false`, `c03_push_false`, `c11_count_false`, `c12_folds_false`, `c12_length_false` |
| C05, C09, C14 | `concat` swaps the operands when the left tree is lower than the right one | `c05_concat_false`, `c09_insert_false`, `c09_remove_false`, `c14_associative_false` |
| C06 | `pop_back` answers `None` on a non-empty vector whose elements are all in the prefix buffer | `c06_pop_back_false` |
| C07 | `pop_front` reverses the suffix buffer | `c07_pop_front_false`, `c07_drain_exact` |
| C08 | `split_at` loses elements when the recorded height is below the real depth | `c08_split_false` |
| C10 | derived equality compares the representation, and the generation counter | `c10_equality_false`, `c10_equality_shape_false` |
| C17 | `Min`/`Max` use `T::default()` as the empty element; `empty().combine(v)` of a `PersistentVector` has the contents of `v` but is not `== v` (version counter) | `c17_min_false`, `c17_max_false`, `c17_pvec_false` (exactly when: `c17_pvec_iff`) |
| C19 | `combine_n_owned` makes `2^(n-1)` copies | `c19_combine_n_owned_false` |
| C24, C25 | `Choice` enumerates in different orders in `apply` and `lift2`; its `bind` is not associative | `c24_choice_false`, `c25_choice_false`; `c24_choice_lift_iff` says for which two choices the orders agree |
| C26 | one identity law of `alt`/`mplus` fails for types that carry errors | `c26_*_false` |
| C27, C29 | `collect` drops an `Invalid` without errors; `to_result` keeps only the first error | `c27_collect_false`, `c29_validated_round_trip_false` |
| C32 | contexts attached to an error that was recovered reappear on a later error | `c32_contexts_false` |
| C37, C40 | `StateT::apply`/`combine` lose state, running a stored value can panic, so right identity and associativity fail for stored values (`c37_right_identity_iff`, `c37_assoc_iff`); `lift` is not a monad morphism for `StateT` and `ContT` | `c37_*_false`, `c40_*_false` |
| C42 | `IO::Pure(x).fmap(f)` runs `f` at construction | `c42_eager_false`, `c42_order_false` |
| C44 | two threads running one `IO` made from a future at the same time: the second panics | `c44_race_false` |
| C49 | `set_focus` replaces the context by the whole source | `c49_set_focus_false` |
| C56 | `Maybe` loses the error value | `c56_maybe_false` |
| C57 | `ReaderT::bind` hands a bitwise copy to the continuation, so an owned value is released twice | `c57_double_drop_false` |
| C58 | `get` panics on a damaged vector | `c58_no_panic_false` |
| C59, C60 | depth grows by one per 31 leaves; `concat` makes branches of any width | `c59_log_false`, `c60_children_false` |
| C62 | the default `try_value` panics on empty values | `c62_try_false` |
| C70 | `fold_option`, documented to short-circuit, calls its function on every element also after a `None` | `c70_fold_option_false` |
| C72 | `Prism::modify`, documented to call the transformation always, does not when the preview fails | `c72_prism_modify_false` |
| C73 | `fold_right` on a damaged vector skips holes at which iteration stops | `c73_fold_right_false` |
| C74 | the texts of `MaybeError`, `Choice`, `AppError` and `ComposableError` are ambiguous when a payload contains the separators; the text of a `PersistentVector` past 64 elements shows no element, and equal vectors print differently after an update that changes nothing | `c74_*_false` |
| C75 | `contra_compose`, documented to compose two functors, ignores its argument | `c75_contra_compose_false` |
| C76 | an element returned by `pop_back` can stay in the tree and be found again after more pushes | `c76_pop_back_false` |
| C77 | `or`, documented "try this parser, if it fails, try the other", always runs both and returns the parses of both | `c77_or_false` |
| C78 | `many` of a parser that may succeed without consuming (`optional`, `many`, `whitespace()`) never returns | `c78_total_false`, `c78_many_many` |
| C79 | a WHERE clause that cannot be read (`id <= 4`) is taken for one without conditions, in an UPDATE too; a one-column SELECT is returned twice; `keyword` counts bytes | `c79_where_kept_false`, `c79_unambiguous_false`, `c79_keyword_false` |
| C80 | seven replacements change the result: `filter_values` for `filter` and sorting after `flatten` for `flatten_sorted` (both on the guide's own example), `iter().map().collect()` for `to_map_with_key` (keeps the last value per key, not the first), removal by value, rebuilding instead of swapping, `fmap` with a test, `bind` for `bind_lazy`; the note of `has_alternatives` omits the negation; `try_value` panics where `as_ref` returns `None` | `c80_…_false`, with `c80_…_iff` for the exact condition |
| C81 | in example 1 a text that is no number prints `Failed to parse configuration file` before `Recovery attempt initiated`, although the second was attached last: contexts of the pipeline always print before those of the error inside it | `c81_latest_first_false`, with `c81_latest_first_iff` |
| C83 | no test over generated values sees an `Invalid` with no or several errors, a `Reader` that looks at its environment, a `State` that reads or changes the state, a `Cont` that is not `return_cont`, an `IO` or `AsyncM` with an effect: the `Arbitrary` implementations cannot make them | `c83_validated_full_false`, `c83_reader_full_false`, `c83_state_full_false`, `c83_cont_full_false`, `c83_io_full_false`, `c83_async_full_false`, with the exact set of values in `c83_…_partial` |
| C84 | `First` and `Last` are written like `Option`: `First(Some(()))` and `First(Some(First(None)))` are written as `null` and read back as `First(None)` | `c84_first_last_false`, with `c84_first_partial`, `c84_last_partial` and the exact condition on types `c84_all_types_iff` |
| C85 | `concat` shares subtrees, so joining a vector with itself again and again, with a few `push_back`s in between, reaches 2^64 elements in 780 calls and a few megabytes: the addition of the lengths overflows (a panic, or a wrong length in a build without checks) | `c85_overflow`, `c85_wrapped`, with `c85_program_partial` and the exact condition per call `c85_concat_iff`, `c85_push_back_iff`, `c85_push_front_iff` |
| C86 | a vector of at most 64 elements comes before every longer one; among the longer ones the deeper tree comes first, and the elements pushed at the front are compared last.  `Just(1) < Nothing` but `Some(1) > None`; `Left(1) < Right(1)` but `Err(1) > Ok(1)` | `c86_vector_false`, `c86_maybe_option_false`, `c86_either_result_false`, with `c86_dictionary_partial`, the exact order `c86_same_layout`, `c86_collected`, and `c86_maybe_option_iff`, `c86_option_maybe_iff`, `c86_either_result_iff`, `c86_validated_result_iff` |
| C87 | `Validated::invalid_many` reserves the *upper* bound of the size hint, so `invalid_many((0..usize::MAX).take_while(\|i\| *i < 3))`, three errors, panics with "capacity overflow" where `invalid_vec` returns them; the branch of `Choice::new` commented as staying inline asks for nine places when the bound is 8; `Vec::lift3` multiplies the first two lengths even when the third vector is empty, which overflows for two vectors of 2^32 elements | `c87_invalid_many_counterexample`, `c87_choice_new_spills`, `c87_vec_lift3_counterexample`, with the exact condition `c87_invalid_many_partial` |
| C88 | with overflow checks `Sum` of a signed type is not associative: `(MAX + 1) + (-1)` panics, `MAX + (1 + (-1))` is `MAX`; `Product` is not associative for any integer type: `(MAX * 2) * 0` panics, `MAX * (2 * 0)` is `0` | `c88_sum_false`, `c88_product_false`, `c88_product_sign_false`, with the exact conditions `c88_sum_iff`, `c88_product_iff`, `c88_sum_panic_iff`, `c88_product_panic_iff` |
| C89 | one `update` can take linearly many nodes (a vector built by `push_back` is a comb), so the logarithmic space of core.rs:19-26 does not hold; reading, persistence, sharing and the bounds by depth do | `c89_log_false`, with `c89_update_cells` exact and `c89_from_iter_partial` |
| C90 | `set` on a lens does not store a value that is `==` but different (`0.0` over `-0.0`), so SetGet and SetSet (lens.rs:140-154) fail as identities for `f64` foci, and SetGet read with `==` fails at NaN; as identities the laws hold exactly when `==` is identity, up to `==` for every `Eq` type; everything else in C90 holds | `c90_lens_false`, with `c90_lens_exact_iff`, `c90_lens_up_to`, `c90_prism_exact_iff` |
| C91 | a closure that calls the memoizer it is computing for waits for its own lock, even when it asks for a cached key, so the Transparency Law (memoizer.rs:34-35) fails for memoized recursion; a closure that panics poisons the lock, so the Commutativity Law (memoizer.rs:40-42) fails for it | `c91_reenter`, `c91_recursion`, `c91_returns_iff`, `c91_commute_false`, `c91_poison`, with `c91_transparent`, `c91_idempotent`, `c91_consistent`, `c91_commute` |
| C92 | `pure_owned` of `Maybe`, `Either`, `Id` clones (default body), `replace_owned` clones (its body is `replace`), `Result::fmap_owned` clones the error; `apply_owned`, `lift2_owned`, `lift3_owned` of `Vec` and `Choice` clone the arguments of every call and `Vec` whole inner vectors (applicative.rs:481-486, 519-524, 562-567 promise fewer clones); `Choice::bind`, `bind_owned`, `join`, `join_owned`, `sequence`, `Vec::from` clone values they own; `Writer::lift3` clones two logs twice; `combine_owned` of maps clones the old value of a common key and `combine` a value it drops; `combine_n_owned` clones the accumulator each round; `Validated::to_result` clones errors it drops | `c92_pure_owned_false`, `c92_replace_owned`, `c92_result_fmap_owned_false`, `c92_vec_owned_false`, `c92_choice_owned_false`, and the exact counts `c92_vec_owned`, `c92_choice_owned_counts`, `c92_choice_bind_counts`, `c92_choice_into`, `c92_writer_lift3`, `c92_map_owned`, `c92_map_borrowed`, `c92_combine_n`, `c92_validated_borrowed` |
| C94 | Chains of `fmap`, `bind`, `local`, `union`, `intersection`, `negate`, `compose_morphisms` on types that store closures nest one call (`Cont`: two) per step, so a long enough chain overflows any stack | `State::pure(0).fmap(\|x\| x + 1)` 1000 times, then `run_state`: 1001 nested calls (`c94_state_exact`); the `Writer` of the changelog (313-316) and the error pipeline are flat (`c94_writer`, `c94_pipeline`) |
| C95 | `to_vec` clones its accumulator at every element, `n(n+1)/2` clones instead of `n`; `fold_map` into `Vec` likewise; `find` clones the hit again for every element after it | `FoldableExt::to_vec(&vec!["a", "b", "c"])`: 6 clones (`c95_to_vec`); no linear bound (`c95_to_vec_false`); `vec![1, 4, 6, 9].find(even)`: 3 clones of 4 (`c95_find`) |
| C96 | Dropping a vector made by `push_back`, `update`, `pop_front`, and every 64th `push_back` nest one call per 1984 elements, because the tree has that many levels (C59) | `push_back` 100000 times, then `drop`: 52 nested calls instead of 4 (`c96_push_back_exact`); no logarithmic bound (`c96_log_false`) |
| C97 | Queues of more than 64 elements fail in both directions (consequences of C06 and C07): filled and then drained, a queue gives back what is behind the first element of the tail in reverse order (`c97_drain_exact`, exactly when that is wrong: `c97_drain_iff`); in the other direction `pop_back` finds nothing at all (`c97_reverse_queue_exact`).  Worse, a queue that once had more than 64 elements and has been emptied keeps an empty leaf at the front of its tree; the next time it holds 65 elements, `pop_front` returns the last of them, the other 64 are lost, and `len` says 64 | `push_back` 65 times, `pop_front` 65 times, `push_back` 65 times, `pop_front`: `c97_emptied_queue_loses`; `c97_queue_false`, `c97_reverse_queue_false` |
| C98 | Every `next` walks from the root, and what `push_back` builds is one level deep per 1984 elements: going through it takes at least (n - 64)² / 3968 node visits | 100000 pushes, then `to_vec`: 2.7 million node visits, where 0.4 million would do: `c98_push_back_exact`, `c98_push_back_quadratic`, `c98_nlogn_false` |
| C99 | `concat` puts the children of both roots into one branch, and a branch is searched from the front: after joining k + 1 vectors of 128 elements, finding the last element looks at k + 2 entries, though no lookup passes more than three nodes | join 1000 vectors of 128 elements: 1001 entries for the last element (`c99_concat_exact`, `c99_log_false`) |
| C100 (and C59, C89, C96, C98, C99) | `split_at`, `take` and `skip` never lower the tree: every level above what is kept stays, with one child, and a vector in tree form never becomes inline again. What a lookup, an `update` or a drop costs, and the memory held, then has no bound in terms of the length at all | `push_back` 1984·(b + 2) times and `take(1)`: one element under more than b nodes (`c100_take_exact`, `c100_no_bound`, `c59_no_bound`) |
| C100, vectors that only grew | `concat` lifts the lower tree to the recorded height by one-child branches (tree.rs:334-354). After `push_back` the last path of the tree is short, so these branches are not merged into it but stay: the nodes grow with the square of the length although nothing was ever taken away | `push_back` 1984·(d + 2) times, then k times `push_back` and `concat` with one element: at least k·(d + 3) nodes for 1984·(d + 2) + 2k + 1 elements (`joining_spec`, `c100_joined_no_bound`, `c100_joined_square`) |
| C101 | `zip_with` and `apply` of two pure values run the function when they are built, not when awaited (async_monad.rs 785-827, 1112-1152): its effects happen although nothing is awaited, once instead of once per await, and a panic in it comes out of the builder; `apply_owned` waits | `pure(1).zip_with(pure(2), f)` where `f` writes to a log: the log is written before any await (`c101_eager`); everything else about dropped futures holds (`c101_ends`, `c101_sequential`, `c101_joined`, `c101_recover`, `c101_prefix`, `c101_building`) |
| C102 | Every 64th `push_back` walks down all levels to find the height of the new root, and the levels grow with the length (C59): pushing `n` elements makes a number of calls that grows with the square of `n`. `concat` asks all children of both roots for their sizes again, and their number is not bounded (C60). `update` and the pops go down the levels, of which `take` leaves all | `push_back` 100000 times: more than 42000 calls in all (`c102_extend_square`); joining 128 elements `k + 1` times: the next `concat` makes `k + 7` calls although no lookup reads more than three nodes (`c102_concat_exact`) and cutting 32 elements off `k + 13` (`c102_split_exact`); `take(1)` of many pushed elements: no bound at all for `update(0)` (`c102_no_bound`) |
| C103 | `combine` of `Vec` clones both sides, and `bind` and `lift2` of `Writer` and `lift2` of `Validated` do so, too: every entry is cloned again at each level (`c103_exact`). A log of 100 entries written one after the other makes 5049 clones (`c103_chain_exact`), and no way of putting `n` steps together makes fewer than `n * log2 n` (`c103_least`, `c103_linear_false`). `fmap` clones the whole log each time (`c103_fmap_exact`), `join` the inner log twice (`c103_join_exact`) | `bind_owned`, `lift2_owned`, `fmap_owned`, `join_owned`: no clone at all (`c103_owned`); `Validated::sequence`: one per error (`c103_sequence_partial`) |
| C104 | `bind` of `ReaderT` clones the environment twice and once more for each value of the base monad, `combine` twice: over `Id` three clones for a `bind` where `Reader::bind` makes one, two for a `combine` (`c104_reader_t_exact`, `c104_reader_t_false`); it holds only for programs that run no `bind` and no `combine` (`c104_reader_t_iff`) | `Reader`: one clone each (`c104_reader_exact`); `State`: one for each `get` and `put` (`c104_state_exact`); `ReaderT` over `Id`: at most three (`c104_reader_t_partial`); over `Option` exactly `c104_reader_option_exact` |
| C105 | `run` of a pure `IO` clones the value the first time, too, and `fmap`, `bind` and `apply` clone it when the program is put together (`c105_exact`): `IO::pure(v).run()` makes one clone (`c105_false`), `n` times `fmap` on a `pure` makes `n` before anything runs (`c105_map_exact`); `combine` clones a pure argument again | exactly the programs in which no `pure` runs clone nothing (`c105_iff`), and those however often they are run (`c105_effects_partial`); `sequence` adds nothing (`c105_sequence_exact`) |
| C107 | `fmap_owned` and `bind_owned` take the `AsyncM` but run it through the same `Arc`, so they clone as often as `fmap` and `bind` (`c107_nothing_saved`: equal counts for every program without `apply`); `apply_owned` on two pure values clones both in every run, where `apply` clones them once when it is called and the result in every run: six clones against five for three runs (`c107_false`); `recover_with` clones the default in every run, also when nothing panics | put together and run once, a program with the owned methods makes at most as many clones (`c107_once_partial`), and so however often it is run if and only if it does in a single run (`c107_always_iff`); exact counts in `c107_exact` |
| C36 | (documentation) the `simple counter` of the README never changes its state | `c36_readme_counter` |
