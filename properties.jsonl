{"id": "C01", "title": "Building a persistent vector from a sequence loses nothing", "statement": "For every finite sequence xs, collecting xs into a PersistentVector (from_iter, from_slice, From<Vec>, pvec!) gives a vector whose len() is the length of xs, whose get(i) is exactly xs[i] (None past the end), and whose iteration / to_vec() is exactly xs.", "quantifier": "every element type, every finite sequence of every length (inline, one leaf, several levels of branching)", "why_tests_cant": "The representation changes shape at 64, 128, 2048, 65536, 2097152, ... elements; a test fixes some lengths, the claim is about all of them.", "anchors": ["src/pvec/core.rs: FromIterator::from_iter, from_slice, get, to_vec", "src/pvec/tree.rs: from_elements, build_tree_with_tail, build_tree_recursive, get", "src/pvec/node.rs: calculate_size, find_child_relaxed"]}
{"id": "C02", "title": "update changes one position and nothing else", "statement": "For every vector v reachable through the API and every index i < len, v.update(i, x) has the same length, holds x at i and the old element at every other index; for i >= len it has the same contents as v. try_update(i, x) is Err(IndexOutOfBounds{index:i,len}) exactly when i >= len and otherwise Ok of the same result.", "quantifier": "every reachable vector, every index, every value", "why_tests_cant": "The frame condition ranges over all pairs of indices of vectors of every shape (prefix buffer, tree at any depth, suffix buffer).", "anchors": ["src/pvec/core.rs: update, try_update", "src/pvec/tree.rs: update", "src/pvec/node.rs: update, find_child"]}
{"id": "C03", "title": "push_back and push_front add exactly one element at the right end", "statement": "For every reachable vector v, v.push_back(x) iterates as v's elements followed by x, and v.push_front(x) as x followed by v's elements; Extend::extend appends a whole sequence in order.", "quantifier": "every reachable vector, every value, every number of repetitions", "why_tests_cant": "Overflowing buffers are moved into the tree at rare moments (every 64th push), and the tree grows a level even more rarely; only a statement over all histories covers them.", "anchors": ["src/pvec/core.rs: push_back, push_front, Extend::extend", "src/pvec/tree.rs: push_back, push_front, push_tail_to_tree, push_head_to_tree", "src/pvec/node.rs: push_leaf, push_front_leaf"]}
{"id": "C04", "title": "Any history of the element-preserving operations behaves like a plain list, for every version", "statement": "Take any program that creates vectors (new, unit, from_iter) and applies push_back, push_front, update, extend, map, filter, filter_map, flat_map, dedup, sorted, zip, partition and chunk to any earlier versions in any order: at every moment every version ever created has the len(), get(i) and iteration of the corresponding plain list program. No panic occurs.", "quantifier": "every finite operation history, every choice of which earlier version each operation reads", "why_tests_cant": "Histories are unbounded and branch (persistence); tests only replay a few of them.", "anchors": ["src/pvec/core.rs: push_back, push_front, update, map, filter, filter_map, flat_map, dedup, sorted, zip, partition, chunk, from_iter, Extend::extend", "src/pvec/tree.rs", "src/pvec/node.rs"]}
{"id": "C05", "title": "concat (and Semigroup::combine) is sequence concatenation", "statement": "For every pair of reachable vectors a, b: a.concat(b) iterates as a's elements followed by b's elements and has length a.len() + b.len().", "quantifier": "every pair of reachable vectors, of any two internal heights", "why_tests_cant": "The result depends on the relative heights and the buffer contents of both operands, which tests sample sparsely.", "anchors": ["src/pvec/core.rs: concat", "src/pvec/tree.rs: concat, concat_same_height, concat_different_height, elevate_tree, concat_nodes", "src/pvec/traits.rs: Semigroup::combine"]}
{"id": "C06", "title": "pop_back returns the last element and leaves the rest", "statement": "For every reachable vector v: v.pop_back() is None exactly when v is empty, and otherwise returns (w, x) where x is the last element and w iterates as v without its last element.", "quantifier": "every reachable vector, including those grown from the front", "why_tests_cant": "Depends on which of three storage regions the last element lives in, i.e. on the whole history of the vector.", "anchors": ["src/pvec/core.rs: pop_back", "src/pvec/tree.rs: pop_back, pop_from_tree", "src/pvec/node.rs: pop_back"]}
{"id": "C07", "title": "pop_front returns the first element and leaves the rest in order", "statement": "For every reachable vector v: v.pop_front() is None exactly when v is empty, and otherwise returns (w, x) where x is the first element and w iterates as v without its first element, in the same order.", "quantifier": "every reachable vector, including the moment the tree part becomes exhausted", "why_tests_cant": "The order of what remains is only wrong after draining a particular number of elements; a property about every prefix of every drain cannot be sampled.", "anchors": ["src/pvec/core.rs: pop_front", "src/pvec/tree.rs: pop_front, pop_front_from_tree", "src/pvec/node.rs: pop_front"]}
{"id": "C08", "title": "split_at / take / skip partition the sequence", "statement": "For every reachable vector v and every n: split_at(n) yields (l, r) with l iterating as the first min(n, len) elements and r as the rest; take(n) is l and skip(n) is r. In particular nothing is lost or duplicated.", "quantifier": "every reachable vector, every cut position", "why_tests_cant": "Correctness depends on bookkeeping of the tree height that is only wrong for particular histories.", "anchors": ["src/pvec/core.rs: split_at, take, skip", "src/pvec/tree.rs: split_at, split_tree_at, split_along_path, find_path_to_index, calculate_height"]}
{"id": "C09", "title": "insert and remove act at exactly one position", "statement": "For every reachable vector v, v.insert(i, x) iterates as the first i elements, x, then the rest (push at the end when i >= len); v.remove(i) is None when i >= len and otherwise iterates as v without position i.", "quantifier": "every reachable vector, every index, every value", "why_tests_cant": "Composed of split and concat, so it inherits every shape-dependent case of both.", "anchors": ["src/pvec/core.rs: insert, remove"]}
{"id": "C10", "title": "Equality and hashing of vectors depend only on contents", "statement": "Two vectors with the same elements in the same order compare equal with == (and therefore hash alike and sort equal), whatever operations produced them; and == vectors have the same elements.", "quantifier": "every pair of reachable vectors, i.e. every pair of histories", "why_tests_cant": "The quantifier is over pairs of histories; tests usually compare vectors built the same way.", "anchors": ["src/pvec/core.rs: derive(PartialEq, Eq, PartialOrd, Ord, Hash) on PersistentVector, generation", "src/pvec/tree.rs: derive(PartialEq) on RRBTree"]}
{"id": "C11", "title": "Iterators yield exactly len() elements and size_hint is exact", "statement": "For every reachable vector, iter() and into_iter() yield get(0), get(1), ..., get(len-1) and then None for ever; after k calls to next the size_hint is exactly len - k (never underflowing).", "quantifier": "every reachable vector, every number of next() calls", "why_tests_cant": "ExactSizeIterator is a promise about every intermediate iterator state of every vector.", "anchors": ["src/pvec/iter.rs: PersistentVectorIter::next, size_hint, PersistentVectorIntoIter::next", "src/pvec/core.rs: iter"]}
{"id": "C12", "title": "Folds over a vector visit every element once, in order", "statement": "fold and Foldable::fold_left agree with the left fold of the element sequence, fold_right with its right fold, and Foldable::length with the number of elements, for every reachable vector and every step function.", "quantifier": "every reachable vector, every accumulator type and step function", "why_tests_cant": "Step functions are arbitrary (not commutative), so every ordering mistake at every size must be excluded.", "anchors": ["src/pvec/traits.rs: Foldable::fold_left, fold_right, length", "src/pvec/core.rs: fold"]}
{"id": "C13", "title": "Derived vector operations agree with their sequence meaning", "statement": "map, filter, filter_map, flat_map, zip, partition, dedup, sorted and chunk return vectors whose contents are those of the same operation on the plain sequence: partition splits into the satisfying and the non-satisfying subsequences; dedup removes exactly consecutive repetitions; sorted is an ordered permutation (stable); chunk(n) cuts into consecutive pieces of n (last one shorter) whose concatenation is the input, and chunk(0) is empty.", "quantifier": "every reachable vector, every function or predicate, every chunk size", "why_tests_cant": "Needs all element values, all predicates and all sizes.", "anchors": ["src/pvec/core.rs: map, filter, filter_map, flat_map, zip, partition, dedup, sorted, chunk"]}
{"id": "C14", "title": "Vector laws: functor identity/composition and monoid laws on contents", "statement": "On contents: map(id) = id, map(g . f) = map g . map f; new() is a left and right identity of concat and concat is associative.", "quantifier": "every reachable vector, every function, every triple of vectors", "why_tests_cant": "Laws quantify over all functions and all triples of differently shaped vectors.", "anchors": ["src/pvec/traits.rs: Functor::fmap, fmap_owned, Semigroup::combine, Monoid::empty", "src/pvec/core.rs: map, concat"]}
{"id": "C15", "title": "The internal version counter cannot overflow in any realistic history", "statement": "A vector built by at most 2^30 operations never makes an operation fail through arithmetic overflow of the 32-bit version counter; and the counter is not observable through get/len/iter.", "quantifier": "every history of at most 2^30 operations", "why_tests_cant": "An overflow needs billions of operations, far beyond any test.", "anchors": ["src/pvec/core.rs: generation field, push_back, transition_to_tree, concat, split_at, insert"]}
{"id": "C16", "title": "combine is associative for every provided semigroup", "statement": "(a.combine(b)).combine(c) equals a.combine(b.combine(c)) for String, Vec, Option, tuples, HashMap/BTreeMap (value-wise), HashSet/BTreeSet, the wrappers First, Last, Min, Max, Sum, Product, Predicate, Id, Writer and Validated, given that the component types' combine is associative.", "quantifier": "all triples of values of every such type", "why_tests_cant": "A universally quantified algebraic law over infinite domains.", "anchors": ["src/traits/semigroup.rs", "src/datatypes/wrapper/*.rs", "src/datatypes/id.rs", "src/datatypes/writer.rs", "src/datatypes/validated/traits.rs", "src/datatypes/choice.rs"]}
{"id": "C17", "title": "empty() is a two-sided identity of combine", "statement": "For every Monoid instance M and every value a: M::empty().combine(a) == a and a.combine(M::empty()) == a.", "quantifier": "all values of every Monoid instance (String, Vec, First, Last, Min, Max, Sum, Product, Predicate, Id, Writer, Validated, PersistentVector)", "why_tests_cant": "A law over all values; for Min/Max it depends on which value the type's Default happens to be.", "anchors": ["src/traits/monoid.rs", "src/datatypes/wrapper/min.rs: Monoid::empty", "src/datatypes/wrapper/max.rs: Monoid::empty", "src/datatypes/wrapper/sum.rs", "src/datatypes/wrapper/product.rs", "src/datatypes/wrapper/first.rs", "src/datatypes/wrapper/last.rs", "src/datatypes/wrapper/predicate.rs"]}
{"id": "C18", "title": "combine and combine_owned agree", "statement": "Whenever both are defined, a.combine(&b) and a.combine_owned(b) return equal results.", "quantifier": "all pairs of values of every semigroup instance", "why_tests_cant": "Two separately written code paths must agree on all inputs.", "anchors": ["src/traits/semigroup.rs", "src/datatypes/wrapper/*.rs", "src/datatypes/validated/traits.rs"]}
{"id": "C19", "title": "Repetition helpers combine exactly n copies", "statement": "For n >= 1, combine_n(n) and combine_n_owned(n) both combine exactly n copies of the value; monoid repeat(x, n) and power(x, n) combine exactly n copies for every n >= 0 (empty() for 0).", "quantifier": "every semigroup/monoid, every value, every n", "why_tests_cant": "Quantified over n; small n hide an exponential/linear confusion.", "anchors": ["src/traits/semigroup.rs: SemigroupExt::combine_n, combine_n_owned", "src/traits/monoid.rs: repeat, power"]}
{"id": "C20", "title": "Folding helpers equal the iterated combine", "statement": "combine_all, combine_all_values, combine_values, mconcat, fold_with and Foldable::fold_map all equal the left-to-right combine of the sequence (empty() / None for the empty one), so with associativity any bracketing gives the same result; combine_all over xs ++ ys is combine_all xs combined with combine_all ys.", "quantifier": "every finite sequence, every monoid", "why_tests_cant": "Sequences of every length and every bracketing.", "anchors": ["src/traits/semigroup.rs: combine_all, combine_all_owned, combine_all_values, combine_values", "src/traits/monoid.rs: combine_all, mconcat", "src/utils/categorical_utils.rs: fold_with", "src/traits/foldable.rs: fold_map, fold_monoid"]}
{"id": "C21", "title": "Merging maps combines values key-wise and keeps every key", "statement": "For HashMap and BTreeMap a.combine(b): a key is present iff it is in a or b; its value is a[k].combine(b[k]) when in both and the single value otherwise; the result does not depend on the iteration order of either map.", "quantifier": "all maps, all keys, all iteration orders", "why_tests_cant": "Hash iteration order is unspecified, so the claim quantifies over all permutations.", "anchors": ["src/traits/semigroup.rs: impl Semigroup for HashMap, BTreeMap"]}
{"id": "C22", "title": "Foldable queries have their textbook meaning", "statement": "find returns the first satisfying element; all/any/contains are the universal/existential statements; is_sorted holds iff consecutive elements are in order; maximum/minimum return a greatest/least element (None iff empty), the first such among equals; reduce is the seedless left fold; to_vec, length, sum_values, product_values, fold_option have their sequence meaning.", "quantifier": "every foldable container (Vec, Option, Result, Maybe, Either, Id, Choice, Validated, PersistentVector), every predicate", "why_tests_cant": "Universally quantified over contents and predicates.", "anchors": ["src/traits/foldable.rs: FoldableExt"]}
{"id": "C23", "title": "Functor laws for every functor", "statement": "fmap(identity) returns an equal value and fmap(f) followed by fmap(g) equals fmap(g after f); fmap_owned agrees with fmap; replace and void are fmap of a constant.", "quantifier": "all values and all functions, for Option, Result, Vec, Maybe, Either, Id, Validated, Choice, Writer, Reader, State, Cont, IO, First, Last, Min, Max, Sum, Product", "why_tests_cant": "Laws over all functions.", "anchors": ["src/traits/functor.rs", "src/datatypes/*.rs", "src/datatypes/wrapper/*.rs"]}
{"id": "C24", "title": "Applicative laws (identity, composition, homomorphism, interchange)", "statement": "For every Applicative instance the four laws hold for apply and pure, lift2/lift3 equal the corresponding applications, and the owned variants agree with the borrowing ones.", "quantifier": "all values and functions, for Option, Result, Vec, Maybe, Either, Id, Validated, Choice, Writer", "why_tests_cant": "Laws over all functions and all containers, including multi-valued ones where the order of results matters.", "anchors": ["src/traits/applicative.rs", "src/datatypes/either.rs", "src/datatypes/maybe.rs", "src/datatypes/validated/traits.rs", "src/datatypes/choice.rs: Applicative::apply, lift2", "src/datatypes/writer.rs"]}
{"id": "C25", "title": "Monad laws (left identity, right identity, associativity)", "statement": "pure(a).bind(f) == f(a); m.bind(pure) == m; m.bind(f).bind(g) == m.bind(|x| f(x).bind(g)); join is bind with the identity; bind_owned/join_owned agree with bind/join.", "quantifier": "all values and Kleisli functions, for Option, Result, Maybe, Either, Id, Validated, Choice, Writer, State, Reader, Cont, IO, AsyncM", "why_tests_cant": "Laws over all Kleisli arrows; for multi-valued monads a violation needs an unusual combination of empty results.", "anchors": ["src/traits/monad.rs", "src/datatypes/*.rs", "src/datatypes/choice.rs: Monad::bind"]}
{"id": "C26", "title": "Alternative and MonadPlus laws", "statement": "empty_alt/mzero is a left and right identity of alt/mplus, alt/mplus is associative, and mzero.bind(f) is mzero.", "quantifier": "all values of Option, Result, Vec, Maybe, Either, Validated, Choice", "why_tests_cant": "Laws over all triples of values; violated only by particular error payloads.", "anchors": ["src/traits/alternative.rs", "src/traits/monad_plus.rs", "src/datatypes/either.rs", "src/datatypes/validated/traits.rs", "src/datatypes/choice.rs"]}
{"id": "C27", "title": "Validated accumulates every error, in order, and never invents or drops one", "statement": "Combining validations applicatively (apply, lift2, lift3, and over any list with sequence, collect, traverse) is Valid iff all inputs are Valid; otherwise it is Invalid with exactly the concatenation of the inputs' errors in input order.", "quantifier": "every list of validations with any number of errors each", "why_tests_cant": "Order and completeness over all error lists and lengths.", "anchors": ["src/datatypes/validated/traits.rs: Applicative", "src/datatypes/validated/core.rs: sequence, collect, sequence_owned, collect_owned"]}
{"id": "C28", "title": "Validated queries and conversions agree with the case", "statement": "is_valid/is_invalid/value/errors/unwrap/unwrap_or/fold agree with the constructor; to_result, to_option, from_result, from_option round-trip for valid values and for single errors; iterators yield exactly the value / exactly the errors.", "quantifier": "every Validated value", "why_tests_cant": "All payloads and all error counts including zero and more than the inline capacity.", "anchors": ["src/datatypes/validated/core.rs", "src/datatypes/validated/iter.rs"]}
{"id": "C29", "title": "Result <-> Validated is an isomorphism", "statement": "Converting Result -> Validated -> Result is the identity for every Result, and Validated -> Result -> Validated is the identity for every Validated.", "quantifier": "every Result and every Validated value", "why_tests_cant": "The second direction ranges over all error lists, not only singletons.", "anchors": ["src/error/convert.rs: validated_to_result, result_to_validated", "src/traits/iso.rs: ResultValidatedIso", "src/utils/error_utils.rs: WithError for Validated"]}
{"id": "C30", "title": "Error-type conversions are lossless where promised", "statement": "result_to_either / either_to_result are mutually inverse; wrap_in_composable_result then flatten_composable_result is the identity; split_validated_errors and collect_errors are inverse on error lists; bimap_result/map_error/fmap_error touch only the intended side.", "quantifier": "every value of each type", "why_tests_cant": "Round-trips over all inputs.", "anchors": ["src/error/convert.rs", "src/error/core.rs", "src/utils/error_utils.rs"]}
{"id": "C31", "title": "Error contexts are reported most-recent-first and completely", "statement": "After any sequence of with_context/with_contexts/set_code/map_core calls, context() lists exactly the attached contexts, newest first, error_code() is the last code set, core_error() is the mapped core error, and error_chain()/Display is the contexts joined by ' -> ' followed by the core error and code.", "quantifier": "every sequence of builder calls", "why_tests_cant": "Unbounded call sequences.", "anchors": ["src/error/types.rs: ComposableError", "src/error/context.rs: accumulate_context, context_fn, format_error_chain, extract_context"]}
{"id": "C32", "title": "An error pipeline is observationally the eager Result program", "statement": "For every chain of with_context/map/and_then/map_error/recover calls ending in finish: the outcome is Ok/Err as for the same chain on the plain Result, and on Err the reported contexts are exactly those attached while that error was in flight (contexts attached to an error that was later recovered do not reappear on a different error).", "quantifier": "every finite chain of pipeline calls", "why_tests_cant": "Interaction between recovery and deferred contexts needs a chain of several calls in a particular order.", "anchors": ["src/error/context.rs: ErrorPipeline"]}
{"id": "C33", "title": "finish and finish_without_box agree; contexts are only evaluated on failure", "statement": "ErrorPipeline::finish and finish_without_box return the same result up to boxing, and a context passed to a pipeline in the Ok state is never converted (its generator never runs).", "quantifier": "every pipeline state and every lazily generated context", "why_tests_cant": "Ranges over all pipelines; laziness is about the absence of an effect.", "anchors": ["src/error/context.rs: finish, finish_without_box, with_context", "src/error/types.rs: LazyContext", "src/error/macros.rs: context!"]}
{"id": "C34", "title": "Traversal helpers stop at the first error", "statement": "sequence/traverse/sequence_results/sequence_options/sequence_with_error/pipeline_result/pipeline_option return the first error (in order) if any step fails and otherwise the results in order; traverse applies its function to no element after the first failure, while traverse_validated applies it to all and reports all errors in order.", "quantifier": "every list of inputs and every (effectful) step function", "why_tests_cant": "Quantified over lists and the position of the failure; 'not called again' is about call traces.", "anchors": ["src/utils/error_utils.rs: sequence, traverse, traverse_validated, sequence_with_error", "src/utils/categorical_utils.rs: sequence_options, sequence_results", "src/utils/hkt_utils.rs: pipeline_option, pipeline_result"]}
{"id": "C35", "title": "Collection and composition utilities mean what their names say", "statement": "filter_map_collect, filter_map, zip_with, fan_out, compose_all, compose, pipe, flip, lift_option, map_option, transform_all, Pipeline::map agree with their sequence/function definitions; compose_all applies its functions left to right; compose(g,f) = pipe(f,g); flip is an involution.", "quantifier": "all lists, functions and arguments", "why_tests_cant": "Universally quantified equalities between functions.", "anchors": ["src/utils/categorical_utils.rs", "src/utils/hkt_utils.rs", "src/utils/transform_utils.rs", "src/utils/functions.rs"]}
{"id": "C36", "title": "State: a computation is its run function, and get/put/modify obey the state laws", "statement": "State satisfies the monad laws observed through run_state; put(s) then get yields s; get then put leaves the state unchanged; put s then put t is put t; modify(f) = get >>= put . f; eval/exec are the projections of run; apply threads the state function-first.", "quantifier": "all states, values, and state-dependent continuations", "why_tests_cant": "Equalities between functions over all initial states.", "anchors": ["src/datatypes/state.rs", "src/transformers/state_t.rs: to_state, from_state"]}
{"id": "C37", "title": "StateT threads the state through every step", "statement": "StateT (over any lawful base monad) satisfies the monad laws for bind_with/pure; apply and combine_with thread the state of the first computation into the second (agree with the bind-based definition); running any StateT value returns rather than panicking.", "quantifier": "all base monads, states and computations in any of the representation variants", "why_tests_cant": "Requires all combinations of representation variants and all base effects.", "anchors": ["src/transformers/state_t.rs: StateT, run_state, bind_with, apply, combine_with, pure"]}
{"id": "C38", "title": "Reader and ReaderT share one environment", "statement": "Reader/ReaderT satisfy the monad laws; ask returns the environment; local(f) runs in f(env) and local(f).local(g) runs in f(g(env)); combine/apply give both computations the same environment; lift ignores it and satisfies the transformer laws lift(pure a) = pure a, lift(m >>= f) = lift m >>= (lift . f).", "quantifier": "all environments, computations and base monads", "why_tests_cant": "Equalities between functions of all environments.", "anchors": ["src/datatypes/reader.rs", "src/transformers/reader_t.rs"]}
{"id": "C39", "title": "Cont and ContT: monad laws and escape semantics of call_cc", "statement": "Cont/ContT satisfy the monad laws for every continuation; apply runs the function computation first; inside call_cc, invoking the escape continuation with a discards the rest of the body and resumes with a; not invoking it makes call_cc transparent.", "quantifier": "all computations and all final continuations", "why_tests_cant": "Quantifies over all continuations (higher-order).", "anchors": ["src/datatypes/cont.rs", "src/transformers/cont_t.rs"]}
{"id": "C40", "title": "lift is a monad morphism for every transformer", "statement": "For each transformer T with base monad M: lift(pure(a)) behaves as pure(a), and lift(m.bind(f)) behaves as lift(m).bind(lift . f).", "quantifier": "all base computations and all continuations/states/environments", "why_tests_cant": "Higher-order equalities over all base monads.", "anchors": ["src/transformers/mod.rs: MonadTransformer::lift", "src/transformers/cont_t.rs: lift", "src/transformers/state_t.rs: lift", "src/transformers/reader_t.rs: lift"]}
{"id": "C41", "title": "Writer keeps the full log in program order", "statement": "Along any chain of bind/apply/lift2/lift3/fmap/tell, the final log is the combination, in program order, of all logs told; with an associative log the bracketing of binds is irrelevant; pure contributes nothing.", "quantifier": "every chain of writer steps, every log monoid", "why_tests_cant": "Chains of unbounded length with non-commutative logs.", "anchors": ["src/datatypes/writer.rs"]}
{"id": "C42", "title": "IO describes effects without running them, and runs them in order, once per run", "statement": "Building an IO by fmap/bind/apply/sequence/combine/recover over effectful parts performs no effect; each run performs each effect exactly once, in program order; fmap/bind obey the monad laws on outcome and effect trace; sequence runs left to right.", "quantifier": "every IO expression, every effect trace", "why_tests_cant": "Laziness and effect order are properties of all traces.", "anchors": ["src/datatypes/io.rs: IO"]}
{"id": "C43", "title": "IO failure capture: try_get/recover turn exactly the panics into values", "statement": "try_get is Ok(v) iff run returns v and Err carrying the panic message iff run panics; recover/recover_with never change a successful run; sequence_composable runs all and returns all failures in order or all values in order.", "quantifier": "every IO expression with possibly panicking steps", "why_tests_cant": "Ranges over all positions where a panic can occur.", "anchors": ["src/datatypes/io.rs: try_get, try_get_composable, recover, recover_with, sequence_composable"]}
{"id": "C44", "title": "An IO built from a future gives every runner the same result", "statement": "Running an IO created by new_async from any number of threads, concurrently or repeatedly, executes the future once and returns its value to every runner.", "quantifier": "every number of threads and every interleaving of their steps", "why_tests_cant": "Needs every schedule; the failing window is a few instructions wide.", "anchors": ["src/datatypes/io.rs: new_async"]}
{"id": "C45", "title": "AsyncM combinators compute the composed value", "statement": "Awaiting fmap/bind/apply/zip/zip_with/recover_with/from_result_or_default yields the same value as the corresponding synchronous composition, the fast paths for pure values agree with the general path, monad laws hold on results, and owned variants agree.", "quantifier": "all values, functions, and interleavings of the two joined sub-computations", "why_tests_cant": "Fast paths must agree with slow paths on all inputs and schedules.", "anchors": ["src/datatypes/async_monad.rs"]}
{"id": "C46", "title": "Memoizer computes each key at most once and never lies", "statement": "For any number of threads calling get_or_compute (and clear) in any interleaving: every call for key k returns a value produced by some caller's function on k; between two clears all calls for k return the same value and the function runs at most once for k; with a pure function f every call returns f(k).", "quantifier": "every number of threads, every schedule, every key sequence", "why_tests_cant": "Statement over all interleavings.", "anchors": ["src/datatypes/wrapper/memoizer.rs: get_or_compute, clear"]}
{"id": "C47", "title": "Lens laws are inherited and preserved", "statement": "If the given get/set functions satisfy the lens laws then so do Lens::get/set (with the no-change shortcut), modify, modify_always and the lens obtained with fmap through an isomorphism; set agrees with set_always; modify(id) = id and modify(g . f) = modify g . modify f.", "quantifier": "all lawful getter/setter pairs, all sources, values and functions", "why_tests_cant": "Quantifies over all lawful lenses.", "anchors": ["src/datatypes/lens.rs"]}
{"id": "C48", "title": "Prism laws are inherited; modify never changes the case", "statement": "If preview/review satisfy the prism laws then preview(review(a)) = Some(a); modify leaves non-matching sources untouched, acts through preview on matching ones, satisfies the functor laws; set_if_different(s, a) always previews as a.", "quantifier": "all lawful prisms, sources, values, functions", "why_tests_cant": "Quantifies over all lawful prisms.", "anchors": ["src/datatypes/prism.rs"]}
{"id": "C49", "title": "Isos, IsoLens and IsoPrism compose lawfully", "statement": "Inverse and composition of isomorphisms are isomorphisms; IsoLens get/set/modify are mutually inverse and obey modify fusion; set_focus/modify_focus change only the focus; an IsoPrism built on an iso satisfies preview(review(a)) = Some(a), and so does the composition of two.", "quantifier": "all isomorphisms and all values", "why_tests_cant": "Quantifies over all isos.", "anchors": ["src/traits/iso.rs", "src/datatypes/iso_lens.rs", "src/datatypes/iso_prism.rs"]}
{"id": "C50", "title": "Choice operations treat the value as a non-empty-first list of alternatives", "statement": "new/of_many/add_alternatives/remove_alternative/filter/fmap/iter/len/combine act on the list (primary followed by alternatives) as the corresponding list operations; each panicking method panics exactly on the documented inputs and its try_ variant returns Err exactly there.", "quantifier": "every Choice value, every index and predicate", "why_tests_cant": "All list shapes including empty ones.", "anchors": ["src/datatypes/choice.rs"]}
{"id": "C51", "title": "Category and arrow laws for function composition", "statement": "FunctionCategory composition is associative with identity morphisms; first/second/split/combine satisfy the arrow laws; compose and the reverse >>> agree.", "quantifier": "all functions and all arguments", "why_tests_cant": "Higher-order equalities.", "anchors": ["src/category/function_category.rs", "src/traits/category.rs", "src/traits/arrow.rs"]}
{"id": "C52", "title": "Predicates form a Boolean algebra of sets", "statement": "union, intersection, difference and negation of predicates decide membership as set operations; De Morgan, distributivity, absorption, double negation hold; the monoid is union with the empty predicate; operator overloads agree with the methods.", "quantifier": "all predicates and all elements", "why_tests_cant": "Infinite domains.", "anchors": ["src/datatypes/wrapper/predicate.rs"]}
{"id": "C53", "title": "Comonad laws for Id", "statement": "extend(extract) is the identity, extract after extend(f) is f, and extend composes; duplicate agrees with extend(identity).", "quantifier": "all values and all functions, for every Comonad instance", "why_tests_cant": "Laws over all functions.", "anchors": ["src/traits/comonad.rs", "src/datatypes/id.rs: Comonad"]}
{"id": "C54", "title": "Bifunctor laws and handedness for Either, Validated and friends", "statement": "bimap(id,id) is the identity, bimap composes, first/second are bimap with the identity on the other side, and each function is applied only to its own side.", "quantifier": "all values and functions", "why_tests_cant": "Laws over all functions.", "anchors": ["src/traits/bifunctor.rs", "src/datatypes/either.rs", "src/datatypes/validated"]}
{"id": "C55", "title": "Error recovery laws (throw/catch)", "statement": "catch(throw(e), h) = h(e); catch(pure(a), h) = pure(a); catch(m, throw) = m; map_error_to changes only errors; catch_owned agrees with catch; recover in ErrorOps likewise.", "quantifier": "all values, errors, handlers, for Result, Option (MonadError) and Result, Either (ErrorOps)", "why_tests_cant": "Laws over all handlers.", "anchors": ["src/traits/monad_error.rs", "src/error/core.rs: ErrorOps"]}
{"id": "C56", "title": "WithError::fmap_error changes only the error", "statement": "For every error-carrying type, fmap_error(f) leaves a success untouched and maps f over the error(s); to_result then agrees with mapping the error of to_result.", "quantifier": "every implementing type (Result, Either, Validated, Maybe) and every value", "why_tests_cant": "Holds or fails per instance for all values.", "anchors": ["src/utils/error_utils.rs: WithError", "src/datatypes/maybe.rs: WithError"]}
{"id": "C57", "title": "Binding in ReaderT does not duplicate ownership", "statement": "During ReaderT::bind each value produced by the base monad is handed to the continuation exactly once, i.e. each owned value is dropped exactly once, for every value type (not only plain-old-data).", "quantifier": "all value types and continuations", "why_tests_cant": "Double drops are undefined behaviour that a passing test does not reveal.", "anchors": ["src/transformers/reader_t.rs: bind (transmute_copy)"]}
{"id": "C58", "title": "No vector operation panics", "statement": "Whatever sequence of calls produced a vector, get, last, update, pop_back, pop_front, split_at, take, skip, insert and remove on it return normally: no index is out of range and no length subtraction underflows.", "quantifier": "every reachable vector, every operation, every argument", "why_tests_cant": "A panic needs a particular, long history to become possible; a test fixes the history.", "anchors": ["src/pvec/tree.rs: get, update, pop_from_tree, pop_front_from_tree, split_at", "src/pvec/core.rs: update, split_at", "src/pvec/node.rs: update_size_table_after_removal"]}
{"id": "C59", "title": "Indexed access costs logarithmically many node visits", "statement": "Reading an element of a vector visits a number of tree nodes bounded by a*log2(len)+b for fixed constants a, b, as the documentation of the vector promises.", "quantifier": "all reachable vectors and all indices", "why_tests_cant": "Cost is a growth statement about every size and every history; a benchmark samples a few of them.", "anchors": ["src/pvec/core.rs:26", "src/pvec/mod.rs:5", "src/pvec/tree.rs: get_from_tree, push_tail_to_tree", "src/pvec/node.rs: push_leaf"]}
{"id": "C60", "title": "Node capacities are respected", "statement": "In every vector the inline storage, each leaf and both buffers hold at most 64 elements (LEAF_CAPACITY, inline size) and each branch node has at most 32 children (BRANCHING_FACTOR, documented as the maximum number of children per branch).", "quantifier": "all reachable vectors, all nodes", "why_tests_cant": "Node layout is private and depends on the whole history, in particular on repeated concatenation.", "anchors": ["src/pvec/node.rs: BRANCHING_FACTOR, LEAF_CAPACITY", "src/pvec/tree.rs: concat_nodes, pushes, splits"]}
{"id": "C61", "title": "Size tables are always present and exact", "statement": "Every branch node of every vector carries a size table with one entry per child, equal to the number of elements stored under that child; the radix arithmetic for branches without a table is never used.", "quantifier": "all reachable vectors, all branch nodes", "why_tests_cant": "A wrong size table misdirects only some later index; tests would need to hit that index after that history.", "anchors": ["src/pvec/node.rs: make_relaxed, find_child, update_size_table_after_removal", "src/pvec/tree.rs: all node constructing functions"]}
{"id": "C62", "title": "Reading a held value: panicking and non-panicking accessors of Identity", "statement": "For every Identity type, value and into_value return the held value and panic exactly when there is none; try_value and try_into_value (documented as the non-panicking variants) never panic and return None in that case.", "quantifier": "all Identity instances, all values including empty ones", "why_tests_cant": "A statement about every instance; the default body is shared and only misbehaves on empty values.", "anchors": ["src/traits/identity.rs", "src/datatypes/*: impl Identity"]}
{"id": "C63", "title": "Accessors and conversions of Maybe, Either and the wrappers", "statement": "unwrap panics exactly on the missing case, unwrap_or/unwrap_or_else/fmap_or fall back only there (and the closure runs only there), filter keeps the value exactly when the predicate holds, conversions to and from Option, Result, Vec and iterators keep the value and are inverse where possible, tap runs its closure exactly once on a present value and returns the receiver.", "quantifier": "all values, defaults, closures and predicates", "why_tests_cant": "Equalities over all closures and values, including the number of times a closure runs.", "anchors": ["src/datatypes/maybe.rs", "src/datatypes/either.rs", "src/datatypes/wrapper/*.rs"]}
{"id": "C64", "title": "Folding with a wrapper monoid computes what its name says", "statement": "Folding any list from the empty element gives: First the first present value, Last the last present value, Sum the sum, Product the product, Predicate the union; folding Min/Max from a first element gives a smallest/greatest element of the list; for combine and combine_owned.", "quantifier": "all lists of all lengths, all element types with lawful operations", "why_tests_cant": "Associativity and identity laws hold of First and of Last alike; only the folded meaning tells them apart, for all lists.", "anchors": ["src/datatypes/wrapper/first.rs", "src/datatypes/wrapper/last.rs", "src/datatypes/wrapper/min.rs", "src/datatypes/wrapper/max.rs", "src/datatypes/wrapper/sum.rs", "src/datatypes/wrapper/product.rs", "src/datatypes/wrapper/predicate.rs"]}
{"id": "C65", "title": "Iterators yield their side once and in order; mutation through them touches only that side", "statement": "The iterators of Either, Validated, Maybe, Id and Writer yield the elements of their side in order and then None for ever; assigning through the mutable iterators changes exactly those elements; Choice::to_map_with_key keeps the first value of every key.", "quantifier": "all values, all numbers of calls of next, all key functions", "why_tests_cant": "Quantifies over every number of calls after exhaustion and every key function.", "anchors": ["src/datatypes/either.rs", "src/datatypes/validated/iter.rs", "src/datatypes/maybe.rs", "src/datatypes/choice.rs: to_map_with_key"]}
{"id": "C66", "title": "Thunks and Evaluate run each computation exactly once, left to right, without memoisation", "statement": "Building a thunk runs nothing; every evaluate runs the function once; the EvaluateExt methods evaluate each operand once, left before right, then call the closure once; filter_evaluate returns the value exactly if the predicate accepts it; owning methods agree with borrowing ones.", "quantifier": "all effectful computations and closures, all worlds", "why_tests_cant": "Counting and ordering effects for every possible effect.", "anchors": ["src/traits/evaluate.rs", "src/datatypes/wrapper/thunk.rs"]}
{"id": "C67", "title": "Asynchronous maps of Validated agree with the synchronous ones under every interleaving", "statement": "fmap_valid_async, fmap_invalid_async and and_then_async settle on the result of fmap, fmap_invalid and bind with the function the futures settle on, for every schedule of the concurrent futures, with the errors in their original order; on the other variant nothing runs.", "quantifier": "all values, all asynchronous functions, all schedules", "why_tests_cant": "Schedules of a test are whatever the executor happens to do.", "anchors": ["src/datatypes/validated/core.rs:1649-1757"]}
{"id": "C68", "title": "Derived trait methods mean what they are documented to mean", "statement": "Alternative::many of the empty structure is empty and of a value the collection of that value; Monad::try_bind falls back to the default exactly on failures; FunctorExt::filter_map keeps exactly the images; ap2 is application to two arguments in order; is_empty_monoid accepts exactly the identity element; PureExt methods are pure of the evident values; Id::then returns its argument.", "quantifier": "all lawful instances, all values and functions", "why_tests_cant": "Laws over all instances and functions.", "anchors": ["src/traits/alternative.rs", "src/traits/monad.rs", "src/traits/functor.rs", "src/traits/applicative.rs", "src/traits/monoid.rs", "src/traits/pure.rs", "src/datatypes/id.rs"]}
{"id": "C69", "title": "Functor, applicative and monad methods call their closure exactly once per held value", "statement": "fmap/fmap_owned call the closure once on every held value, in order, and not at all on a failure; apply/lift2/lift3 (and _owned) once per combination of held values; bind once on the held value (Choice: primary first, then, unless its answer is empty, every alternative); a panic in the closure ends the method there with everything before it done and nothing after it.", "quantifier": "all instances in the crate, all containers, all closures with any effect on any world, including panics", "why_tests_cant": "Counts and orders effects for every possible effect and every panic position; a closure called twice is invisible to a test with a pure closure.", "anchors": ["src/traits/functor.rs", "src/traits/applicative.rs", "src/traits/monad.rs", "src/datatypes/*: impl Functor/Applicative/Monad", "src/datatypes/choice.rs:1266-1286,1444-1509,1689-1875"]}
{"id": "C70", "title": "Folds pass the accumulator once per element; searching folds stop asking when the answer is known", "statement": "fold_left goes through the elements in order and fold_right in reverse, one call each; fold_map and reduce make one call per element (reduce one less); find, all and any do not call the predicate after the answer is decided; fold_option, documented to short-circuit on None, stops at the first None.", "quantifier": "all Foldable instances, all closures with any effect, all worlds, including panics", "why_tests_cant": "The number of predicate calls is not part of the returned value, and the claim is over every predicate.", "anchors": ["src/traits/foldable.rs:232-237,339-417,463-472,676-685", "src/datatypes/*: impl Foldable"]}
{"id": "C71", "title": "Predicate combinators short-circuit", "statement": "union, |, combine and combine_owned evaluate the second predicate only where the first says no; intersection, & and diff, - only where it says yes; negate evaluates once; where the first predicate decides, effects and panics of the second do not happen.", "quantifier": "all predicates with any effect, all arguments, all worlds", "why_tests_cant": "A swapped or strict evaluation order gives the same boolean for every pure predicate.", "anchors": ["src/datatypes/wrapper/predicate.rs:168-490"]}
{"id": "C72", "title": "Optics call their functions as documented", "statement": "Lens::set reads once and writes only a different value; modify calls the transformation once and writes only a change; modify_always and set_always always write; Prism::set_if_different previews once and reviews unless the value is there; Prism::modify always calls the transformation, even if preview fails; a panicking transformation leaves nothing written.", "quantifier": "all lenses, prisms, sources, values and transformations", "why_tests_cant": "Counts calls for every optic; results alone do not show whether a write was skipped.", "anchors": ["src/datatypes/lens.rs:383-641", "src/datatypes/prism.rs:562-831"]}
{"id": "C73", "title": "Validated and PersistentVector call their closures once per element and stop where documented", "statement": "recover_all tries errors in order and stops at the first success; recover_all_at_once, from_option_with and sequence call at most once and only in their case; bimap/fmap_invalid call the error function once per error; PersistentVector map/filter/filter_map/flat_map/partition/fold call once per element in order and fold_right once per element in reverse; a panic ends the operation at that call.", "quantifier": "all values and vectors, all closures with any effect, all worlds", "why_tests_cant": "Counts and orders effects for every closure, vector shape and panic position.", "anchors": ["src/datatypes/validated/core.rs:224-291,815-865,1179-1221,1386-1417", "src/datatypes/validated/traits.rs:158-255", "src/pvec/core.rs:183-452", "src/pvec/traits.rs:42-86"]}
{"id": "C74", "title": "Printed text tells values apart", "statement": "The Display/Debug text of the wrappers, errors, Choice and PersistentVector is exactly the documented format, and different values print differently whenever their payloads do.", "quantifier": "all values, all printers of the payload", "why_tests_cant": "Injectivity over all pairs of values; a test compares a few strings.", "anchors": ["src/datatypes/wrapper/*.rs: impl Display/Debug", "src/datatypes/choice.rs:1997-2015", "src/datatypes/io.rs:473-480", "src/datatypes/maybe.rs:251-258", "src/pvec/error.rs:28-47", "src/pvec/core.rs:1060-1080", "src/utils/error_utils.rs:644-651", "src/error/types.rs:337-341"]}
{"id": "C75", "title": "Provided methods of the traits without instances follow from the required ones", "statement": "For every lawful ContravariantFunctor: contramap_with is contramap, contramap_const makes the input irrelevant, contra_compose composes its two functors; identity_nat returns its argument and is natural; Traversable::sequence is traverse with the identity and agrees with sequence_owned.", "quantifier": "all lawful instances a caller may write", "why_tests_cant": "The crate has no instance to test; the claim is over all of them.", "anchors": ["src/traits/contravariant_functor.rs:94-170", "src/traits/natural_transformation.rs:29-83", "src/traits/traversable.rs:34-123"]}
{"id": "C76", "title": "Not even a damaged vector invents or duplicates an element", "statement": "Take any history of API calls, including those that damage the vector, and the elements its calls put in: what get finds at all positions together, what iteration yields, the two parts of a split_at together, and what a pop returns together with everything that can be read from then on, contain no element more often than it was put in.", "quantifier": "every finite history of the construction, growth, update, concat, pop, split, take, skip, insert and remove calls, with no exclusions; every element type", "why_tests_cant": "The claim is about multiplicities in all states, most of which no test reaches; it must hold where the other vector properties fail.", "anchors": ["src/pvec/core.rs:204-213,509-973", "src/pvec/tree.rs:114-890", "src/pvec/iter.rs:29-63"]}
{"id": "C77", "title": "The parser combinators compute the lists of parses they stand for", "statement": "In the parser library of examples/advanced_parser.rs, and_then, map, apply, optional, item, satisfy and sequence return exactly the list comprehension they stand for, in order; the monad and functor laws hold; what a parser leaves over is always an end of its input; or tries the second parser only when the first one fails.", "quantifier": "all parsers, functions and inputs, including parsers that do not return", "why_tests_cant": "Laws between parsers are equalities over all inputs and all nondeterministic results.", "anchors": ["examples/advanced_parser.rs:18-170,205-211,288-350"]}
{"id": "C78", "title": "Repetition takes as much as it can and ends", "statement": "many returns exactly the greedy repetition of its parser as its only parse, and many1, sep_by, sep_by1, chainl1 and between are built on it as documented; a repetition of a parser that returns also returns.", "quantifier": "all parsers and inputs", "why_tests_cant": "Termination cannot be observed by a test, and the inputs on which a repetition does not end depend on the parser.", "anchors": ["examples/advanced_parser.rs:173-285"]}
{"id": "C79", "title": "The SQL reader reads exactly the queries of its grammar", "statement": "Every text of a SELECT, INSERT or UPDATE, in any case and with any white space, is read completely and as its query; whatever is returned is a beginning of the text that stands for the returned query; the reader returns on every text, with at most one parse, and does not drop a WHERE clause it cannot read; a keyword is recognised in any case.", "quantifier": "all texts, all queries, all Unicode classifications meeting three stated conditions", "why_tests_cant": "The texts of one query are infinitely many; the example runs seven.", "anchors": ["examples/advanced_parser.rs:353-562"]}
{"id": "C80", "title": "A deprecated method agrees with its documented replacement", "statement": "For every deprecated method of Choice, the Identity trait and the error helpers, the replacement code given in the migration guide or the deprecation note returns what the deprecated method returns.", "quantifier": "all choices, keys, predicates, functions and indices", "why_tests_cant": "The guide shows one input per method; the claim that code can be migrated is about every input.", "anchors": ["MIGRATION_v0.11.0.md:590-965", "examples/choice_migration_v0_11_0.rs", "examples/identity_migration_v0_11_0.rs", "src/datatypes/choice.rs:340-708,862-894,1140-1263", "src/traits/identity.rs:95-251", "src/utils/error_utils.rs:409-710"]}
{"id": "C81", "title": "The example error pipeline reports the first failing step with every context, latest first", "statement": "The pipeline of examples/error.rs reports, for every configuration text, success with the processed row count exactly when the text is an even number of at least 100, and otherwise the message of the first step that failed; every context attached on the way is printed once, the one attached last in front; the recovery step never hides a failure.", "quantifier": "all configuration texts and every number reader; for the order of contexts: all sequences of contexts given to the pipeline or to the error inside it", "why_tests_cant": "The example runs two texts and prints the result without checking it; the order of contexts depends on all interleavings of the two places.", "anchors": ["examples/error.rs:6-114", "src/error/context.rs:155-453,483-570", "src/error/types.rs:121-156,309-341"]}
{"id": "C82", "title": "Every property test of the repository passes on every input", "statement": "Each of the functions the repository hands to QuickCheck returns true for every input of its type, or discards it under the condition it names, and never panics; the tests over the bounded generator of TestBifunctor do so on every value the generator and its shrinker can make.", "quantifier": "all i32, i8, u8, strings, vectors and values of the test types, not only the hundred drawn per run", "why_tests_cant": "A run draws some hundred values; overflow at the ends of the integer range and rare shapes need not be among them.", "anchors": ["tests/datatypes/test_validated.rs:1261-1440", "tests/datatypes/test_maybe.rs:10-146", "tests/laws/mod.rs:1-25", "tests/traits/mod.rs:20-260", "tests/traits/test_functor.rs:5-49", "tests/traits/test_foldable.rs:22-102", "tests/traits/test_monoid.rs:10-201", "tests/traits/test_applicative.rs:8-127", "tests/traits/test_semigroup.rs:7-11", "tests/traits/test_monad.rs:186-228", "tests/traits/test_bifunctor.rs:9-156", "tests/traits_impl_option_result/applicative_laws.rs:226-333", "tests/traits_impl_option_result/functor_laws.rs:159-199", "tests/traits_impl_option_result/monad_laws.rs:175-217"]}
{"id": "C83", "title": "The Arbitrary implementations can make every value of their types", "statement": "If the generators of the element types can return every value, so can the Arbitrary implementation of each type of the crate; what Maybe::shrink yields is smaller, and shrinking ends.", "quantifier": "all element generators, all random states, all values", "why_tests_cant": "That a value never comes out of a generator cannot be seen by running it.", "anchors": ["src/datatypes/async_monad.rs:1253-1258", "src/datatypes/choice.rs:2105-2110", "src/datatypes/cont.rs:734-743", "src/datatypes/either.rs:1352-1366", "src/datatypes/id.rs:830-834", "src/datatypes/io.rs:1500-1505", "src/datatypes/maybe.rs:1487-1510", "src/datatypes/reader.rs:621-628", "src/datatypes/state.rs:1276-1285", "src/datatypes/validated/traits.rs:965-979", "src/datatypes/writer.rs:1221-1230"]}
{"id": "C84", "title": "A serialised value reads back unchanged", "statement": "With the serde feature, for Min, Max, Sum, Product, First, Last, Id, Choice, Writer, Maybe, Either and Validated, deserialising what was serialised (through JSON) gives the same value, whenever this holds of the contents; different values are written differently.", "quantifier": "all values of all types built from these, and all contents", "why_tests_cant": "The tests serialise one or two values of one instance of each type; nesting the types in each other gives infinitely many instances.", "anchors": ["src/datatypes/wrapper/min.rs:147-148", "src/datatypes/wrapper/max.rs:151-152", "src/datatypes/wrapper/sum.rs:192-194", "src/datatypes/wrapper/product.rs:131-132", "src/datatypes/wrapper/first.rs:174-176", "src/datatypes/wrapper/last.rs:176-177", "src/datatypes/id.rs:248-252", "src/datatypes/choice.rs:195-199", "src/datatypes/writer.rs:197-203", "src/datatypes/maybe.rs:234-240", "src/datatypes/either.rs:263-269", "src/datatypes/validated/core.rs:138-145"]}
{"id": "C85", "title": "The length of a vector always fits into a machine word", "statement": "Whatever calls a program makes on vectors, no addition of lengths overflows usize as long as the program's memory does not run out; in particular a program of fewer than 1000 calls that uses a few megabytes never overflows.", "quantifier": "all programs of calls on vectors, all word sizes", "why_tests_cant": "An overflow needs vectors of 2^64 elements, which no test would think to build; that concat shares subtrees makes them cheap.", "anchors": ["src/pvec/core.rs:693-734", "src/pvec/core.rs:509-561", "src/pvec/core.rs:949-973", "src/pvec/tree.rs:205-278", "src/pvec/tree.rs:280-434", "src/pvec/node.rs:40-50", "src/pvec/node.rs:214-270", "src/pvec/node.rs:330-378"]}
{"id": "C86", "title": "The derived orderings are total, agree with ==, order sequences like a dictionary and survive conversions", "statement": "The derived Ord of Maybe, Either, Validated, Writer, Choice, Id, the wrappers and PersistentVector is a total order whose Equal is ==, and partial_cmp returns what cmp returns; choices, lists of errors and vectors are ordered like the lists of their elements; converting to and from Option and Result does not change how two values compare.", "quantifier": "all values and all element types with a total order", "why_tests_cant": "The laws of an order are about all triples of values, and a test of the order of vectors would have to compare different internal layouts.", "anchors": ["src/datatypes/maybe.rs:233-240", "src/datatypes/either.rs:262-269", "src/datatypes/validated/core.rs:137-145", "src/datatypes/writer.rs:196-203", "src/datatypes/choice.rs:196-199", "src/datatypes/id.rs:246-252", "src/datatypes/wrapper/*.rs: derive(PartialOrd, Ord)", "src/pvec/core.rs:43-62", "src/pvec/tree.rs:16-28", "src/pvec/node.rs:23-37"]}
{"id": "C87", "title": "What is built from an iterator depends on its items alone", "statement": "Choice::new, Choice::of_many, Validated::invalid_many, Validated::invalid_vec, filter_map and filter_map_collect return the value made of the items an iterator yields, whatever size hint it gives within the contract of size_hint, as long as there is room for twice the items; the capacities computed in bind, lift2 and lift3 do not underflow and are those needed.", "quantifier": "all items, all size hints within the contract, all limits of the allocator", "why_tests_cant": "Tests pass vectors, whose hints are exact; an iterator whose upper bound is far above the number of items takes a branch no test takes.", "anchors": ["src/datatypes/validated/core.rs:697-738,774-789", "src/datatypes/choice.rs:242-262,952-964,1465,1499,1753,1783,1821,1859", "src/traits/applicative.rs:911,932,969,990", "src/utils/hkt_utils.rs:59-79", "src/utils/categorical_utils.rs:461-480"]}
{"id": "C88", "title": "Sums and products of machine integers do not depend on how they are combined", "statement": "For every integer type, combining the same values with Sum or Product in any order and any bracketing gives the same outcome, panics included; a result that is returned is the exact sum or product; empty is neutral and never panics; combine_all, mconcat, repeat, power and combine_n panic exactly when a partial result does not fit; builds with and without overflow checks agree wherever the checked one returns.", "quantifier": "all integer ranges, all values in range, all bracketings and permutations, all exponents", "why_tests_cant": "The tests (also the QuickCheck ones) use small numbers; overflow in an intermediate result that cancels later needs values at the edge of the range.", "anchors": ["src/datatypes/wrapper/sum.rs:287-289,345-347,432-434", "src/datatypes/wrapper/product.rs:225-227,283-285,370-372", "src/traits/monoid.rs:187-197,267-285,325-338,378-387", "src/traits/semigroup.rs:214-242"]}
{"id": "C89", "title": "Versions of a persistent vector share their nodes in memory and never change one another", "statement": "PersistentVector with its nodes as memory cells behind Arc: after any program every version reads as it does when vectors are values; no later call changes memory in use, so every earlier version keeps reading the same; every node the result of a call uses is new or used by one of the vectors given to the call; update takes one new node per node on the way to the element, push_back and push_front at most four and none while there is room, n push_back at most n/16, pop_back and pop_front one per level plus one, split_at, take and skip two per level plus two, concat one per level of depth and of height difference plus a constant; insert four per level plus 25, remove six per level plus 21; the number of nodes an update takes is logarithmic in the length.", "quantifier": "all programs of calls on any versions, all indices, all element types", "why_tests_cant": "A test sees values; which nodes two versions have in common and how many a call allocates cannot be observed through the public interface.", "anchors": ["src/pvec/core.rs:19-26", "src/pvec/core.rs:204-973", "src/pvec/tree.rs:16-891", "src/pvec/node.rs:23-434"]}
{"id": "C90", "title": "Equality and order of elements need only be what PartialEq, Eq and Ord promise", "statement": "Where the library compares elements it relies on no more than Rust's contracts. For any PartialEq: vectors that are == have pairwise == elements, collected vectors are == exactly when their lists are, and vector == is symmetric, transitive or reflexive when the elements' == is; dedup keeps the head of each run; contains asks for an == element; lens and prism updates leave everything but the focus alone and obey the lens and prism laws. For any Eq: dedup_by_key keeps exactly the first value of each class of equal keys, to_map_with_key the first value for each, merging maps and sets keeps the left key and is associative. For any total preorder: Min and Max are associative, keep the left of two Equal values and fold to the first least or greatest; sorting is stable.", "quantifier": "all element types, all comparisons satisfying the contracts, all values", "why_tests_cant": "Tests use integers and strings, for which == is identity; floating-point NaN and signed zero, or records compared by key, behave differently in the same code.", "anchors": ["src/datatypes/lens.rs:443-571", "src/datatypes/prism.rs:743-831", "src/traits/iso.rs:653-662", "src/pvec/core.rs:43-62,341-356", "src/datatypes/choice.rs:444-521,864-894", "src/traits/foldable.rs:439-444,634-646", "src/traits/semigroup.rs:305-396", "src/datatypes/wrapper/min.rs:242-308", "src/datatypes/wrapper/max.rs:246-312"]}
{"id": "C91", "title": "Memoizer keeps its four documented laws for closures of any kind, nested use included", "statement": "For one thread with any number of memoizers and closures that have effects, panic, or use memoizers again: the first call for a key ends as its closure alone would (same value or panic, same effects); a call for a key that was returned before returns the same value and runs nothing, whatever closure it is given; a cached value stays until clear; calls for different keys can be swapped; locks are released when a call ends.", "quantifier": "all programs over any number of memoizers, all closures, all keys and cache contents", "why_tests_cant": "The tests call get_or_compute with plain functions; a closure that panics or that calls the memoizer it is computing for is never tried, and the latter would hang the test.", "anchors": ["src/datatypes/wrapper/memoizer.rs:26-42", "src/datatypes/wrapper/memoizer.rs:105-148", "src/datatypes/wrapper/memoizer.rs:197-217", "src/datatypes/wrapper/memoizer.rs:254-257"]}
{"id": "C92", "title": "Methods that take ownership do not clone, and methods that borrow clone only what their result keeps", "statement": "With Clone::clone of the elements as an arbitrary action (it may count, panic, or return another value): fmap_owned, apply_owned, lift2_owned, lift3_owned, bind_owned, join_owned, mplus_owned, combine_owned, pure_owned, replace_owned, combine_all, combine_n_owned, catch_owned, map_error_to_owned, the Validated methods ending in _owned and the into_ methods never clone; fmap, apply, lift2, lift3, bind, mplus, combine, catch and the borrowing methods of Validated clone exactly the part of the borrowed values that is in the result, in order. Option, Result, Vec, Maybe, Either, Validated, Choice, Id, Writer, the wrappers and the maps.", "quantifier": "all containers, all closures with effects or panics, all Clone implementations", "why_tests_cant": "A test compares results; a clone too many gives an equal result and is visible only with a Clone that has effects.", "anchors": ["src/traits/functor.rs:176-234,592-700", "src/traits/applicative.rs:481-686,760-1000", "src/traits/pure.rs:188-222", "src/traits/semigroup.rs:181-242,289-476", "src/traits/monad_error.rs:158,255-342", "src/datatypes/maybe.rs:772-1213", "src/datatypes/either.rs:808-1153", "src/datatypes/validated/core.rs:339-1619", "src/datatypes/validated/traits.rs:57-957", "src/datatypes/choice.rs:1266-2091", "src/datatypes/writer.rs:460-1192", "src/datatypes/id.rs:412-740"]}
{"id": "C93", "title": "Operations on a persistent vector clone a bounded number of elements", "statement": "However long the vector and whatever calls made it: clone of the vector clones at most 64 elements, update at most 192, push_back and push_front at most 256, extend by k elements at most 256 k, pop_front at most 128, pop_back at most 129, split_at, take and skip at most 320, concat at most 1408, insert at most 1984 and remove at most 2048; the bounds of update, push_back, push_front, pop_front and split_at are reached. Collecting at most 64 owned elements clones none of them; collecting n > 64 clones each once and the n % 64 left over twice. from_slice, to_vec, filter, dedup, sorted and partition clone what they take once, and then as collecting does. What these calls clone is always an element the vector held (of concat: either vector); the value given to push_back, push_front and update is never cloned, of the values given to extend the last one never is, and insert may clone the value given.", "quantifier": "all vectors made by any program of calls, all indices, all element types", "why_tests_cant": "Clones give equal elements, so a test of the results does not see them; a bound for all lengths is not a test at some lengths.", "anchors": ["src/pvec/node.rs:23-434", "src/pvec/tree.rs:16-891", "src/pvec/core.rs:84-973", "src/pvec/iter.rs:1-66", "src/pvec/traits.rs:1-111"]}
{"id": "C94", "title": "A chain of n operations runs with calls nested to a depth that does not grow with n", "statement": "Chaining fmap, bind, local, union, intersection, negate or composition n times and running the result nests stored closures (Arc, Rc or Box of dyn Fn, boxed futures) to a depth bounded independently of n, given that each of the functions passed needs at most K.", "quantifier": "all chains of all lengths, all functions, all starting computations; State, StateT, Reader, ReaderT, Cont, ContT, IO, AsyncM, Predicate, function morphisms, Writer, ErrorPipeline, Maybe, Validated, Choice", "why_tests_cant": "A test runs a chain of some length within the stack it has; only a bound for all n rules out an overflow.", "anchors": ["CHANGELOG.md:51,313-316", "src/datatypes/state.rs:424-838", "src/transformers/state_t.rs:199-456", "src/datatypes/reader.rs:278-581", "src/transformers/reader_t.rs:313-692", "src/transformers/cont_t.rs:107-226", "src/datatypes/io.rs:658-898,1467-1473", "src/datatypes/async_monad.rs:573-750", "src/datatypes/wrapper/predicate.rs:168-340", "src/category/function_category.rs:153-164,393-399", "src/utils/hkt_utils.rs:510-519", "src/datatypes/writer.rs:508-517,1004-1013", "src/error/context.rs:204-350", "src/datatypes/maybe.rs:1005-1013", "src/datatypes/validated/traits.rs:590-599", "src/datatypes/choice.rs:1444-1477"]}
{"id": "C95", "title": "The folding helpers make at most a constant number of clones per element", "statement": "length, is_empty, all, any, contains clone nothing; reduce clones at most the first element; find, maximum, minimum, is_sorted clone at most one element per element of the container; sum_values and product_values two and one more; fold_map, fold_option and fold_monoid nothing besides what combine and the conversion cost; to_vec clones each element once.", "quantifier": "all containers with fold_left, all elements, all implementations of Clone that return an equal value (all implementations at all for the helpers that clone nothing, and for reduce), all closures", "why_tests_cant": "Clones give equal values, so the results do not show them; a bound for all lengths is not a test at some lengths.", "anchors": ["src/traits/foldable.rs:108-766", "src/datatypes/choice.rs:2017-2037", "src/datatypes/id.rs:768-786", "src/datatypes/validated/traits.rs:682-706", "src/pvec/traits.rs:61-86"]}
{"id": "C96", "title": "Calls on a persistent vector, and dropping it, nest their recursion at most logarithmically deep", "statement": "For every vector made by any program of calls, the functions of pvec that call themselves (get, update, calculate_size, pop_back and pop_front of a node, build_tree_recursive, concat_nodes, split_along_path, calculate_height, and dropping a node) are active at once, during any call on the vector or while it is dropped, at most a * log2(len) + b times.", "quantifier": "all vectors made by any program of calls, all indices, all element types", "why_tests_cant": "A test needs as much stack as its own vector; only a bound for all lengths rules out an overflow for the next one.", "anchors": ["src/pvec/node.rs:146-158,183-212,259-328,380-433", "src/pvec/tree.rs:88-112,205-278,356-434,614-662,879-890", "src/pvec/core.rs:509-973"]}
{"id": "C97", "title": "A persistent vector used as a stack or as a queue gives its elements back in the right order", "statement": "Start with a new vector and make any calls of push_front, push_back, pop_front and pop_back, keeping the vector each returns (the old one where a pop returns None): every pop returns what it returns on a list, None exactly when the list is empty, and the vector at the end shows the list at the end. In particular for stacks at the back, stacks at the front, and queues in both directions.", "quantifier": "all programs of the four calls of any length, all element types", "why_tests_cant": "A test plays some programs of some length; the failures need more than 64 elements and a certain sequence of emptying and filling.", "anchors": ["src/pvec/core.rs:509-575,758-845", "src/pvec/tree.rs:205-278,436-560", "src/pvec/node.rs:214-433"]}
{"id": "C98", "title": "Going through a whole vector costs at most n·log n node visits", "statement": "Reading all elements of a vector one after another with its iterator, as to_vec, map, filter, the folds, ==, hashing, sorting and serialising do, visits a number of tree nodes bounded by len * (a * log2(len) + b) for fixed constants a, b.", "quantifier": "all reachable vectors, all element types", "why_tests_cant": "Cost is a growth statement about every size and every history; a benchmark samples a few of them.", "anchors": ["src/pvec/iter.rs:10-72", "src/pvec/core.rs:26,148-153,204-213", "src/pvec/tree.rs:114-158", "src/pvec/node.rs:214-257"]}
{"id": "C99", "title": "A lookup looks at logarithmically many size-table entries", "statement": "Reading an element of a vector looks at a number of size-table entries, over all branches it passes, bounded by a * log2(len) + b for fixed constants a, b.", "quantifier": "all reachable vectors and all indices, all element types", "why_tests_cant": "Cost is a growth statement about every size and every history; a benchmark samples a few of them.", "anchors": ["src/pvec/node.rs:52-90", "src/pvec/tree.rs:134-158,356-434", "src/pvec/core.rs:26,204-213"]}
{"id": "C100", "title": "A vector holds tree nodes in proportion to its length", "statement": "There are constants a and b such that every vector holds at most a * len + b tree nodes, whatever calls made it (a node counted once for every place it has in the tree).", "quantifier": "all vectors made by any program of calls, all element types", "why_tests_cant": "Memory held is a growth statement about every size and every history; a test measures a few vectors, and usually ones that were only ever built up.", "anchors": ["src/pvec/tree.rs:88-112,221-278,297-434,562-731", "src/pvec/node.rs:214-433", "src/pvec/core.rs:864-960"]}
{"id": "C101", "title": "A dropped AsyncM leaves a prefix of its effects", "statement": "An AsyncM that is built and never awaited has no effect. When its future is dropped before its end: fmap and bind have run nothing of the function unless the first computation was through, each part of apply and zip_with has run a prefix of its own segments and the function runs only when both are through, recover_with and from_result_or_default add nothing, and what a shorter run leaves is contained in what a longer run leaves.", "quantifier": "all computations, functions, schedules of the two joined parts, and all points at which the future can be dropped", "why_tests_cant": "The point of cancellation is chosen by a timer or another task; a test drops at a few points only.", "anchors": ["src/datatypes/async_monad.rs:620-658,700-750,785-827,867-892,1042-1074,1112-1152,1221-1250"]}
{"id": "C102", "title": "A vector operation makes logarithmically many calls", "statement": "For every vector made by any program of calls, one call of update, push_back, push_front, pop_back, pop_front, split_at, take, skip, concat, insert or remove makes, in all, at most a * log2(len) + b calls of the functions of pvec that call themselves (get, update, calculate_size, pop_back and pop_front of a node, build_tree_recursive, concat_nodes, split_along_path, calculate_height); n calls of push_back one after the other make at most a * n * log2(n) + b.", "quantifier": "all reachable vectors, all indices, all element types", "why_tests_cant": "Cost is a growth statement about every size and every history; a benchmark samples a few of them.", "anchors": ["src/pvec/node.rs:40-50,146-158,183-328,330-433", "src/pvec/tree.rs:88-112,160-278,280-496,498-731,825-890", "src/pvec/core.rs:26,509-973"]}
{"id": "C103", "title": "Keeping a log or collecting errors clones each entry a bounded number of times", "statement": "There are constants a and b such that every program put together from n steps that each write one entry, two at a time with bind or lift2 of Writer<Vec<E>, _> or with lift2 of Validated<E, _>, clones entries at most a * n + b times in all, with the methods that borrow as with the methods that take ownership; so do sequence of Validated with one error per value, n calls of fmap on a log of fixed length, and join.", "quantifier": "all programs (every way of putting n steps together), all entries, every implementation of Clone", "why_tests_cant": "Cost is a growth statement about every length and every nesting of a program; a test runs a few short programs and does not count clones.", "anchors": ["src/datatypes/writer.rs:506-528,655-667,859-871,1004-1013,1120-1130", "src/datatypes/validated/traits.rs:406-432", "src/datatypes/validated/core.rs:1386-1478", "src/traits/semigroup.rs:289-302"]}
{"id": "C104", "title": "A reader clones its environment, and a state its state, no more often than it has to", "statement": "For every program put together from parts with new, fmap, bind, local and combine of Reader or of ReaderT, and every environment, running the program clones the environment at most once for each bind and combine that runs (each gives the environment to two readers). For every program put together with new, pure, get, put, modify, fmap, bind and apply of State, running it clones the state exactly once for each get and put that runs and a value exactly once for each pure that runs.", "quantifier": "all programs (closures may choose the next part by the value), all environments and states, every implementation of Clone that counts", "why_tests_cant": "How often a value is cloned is not visible in a result, and grows with the program; a test runs a few programs and does not count.", "anchors": ["src/datatypes/reader.rs:250-358,381-456,520-581", "src/transformers/reader_t.rs:270-318,403-409,607-725,781-963,1033-1051", "src/datatypes/state.rs:379-427,596-605,708-717,766-768,827-838,908-999", "src/datatypes/id.rs:295-313"]}
{"id": "C105", "title": "The value of an IO is cloned only if the IO is run more than once", "statement": "For every program put together with pure, new, fmap, bind, apply and combine of IO, putting it together and running it once clones no value (the comment in IO::pure: 'Only clone if the IO is run multiple times'); values that effects give are never cloned, however often the program is run.", "quantifier": "all programs (a bind may choose the next part by the value), all numbers of runs, every implementation of Clone that counts", "why_tests_cant": "How often a value is cloned is not visible in a result; a test compares results of a few programs.", "anchors": ["src/datatypes/io.rs:583-663,718-720,821-831,855-858,888-898,1291-1323,1440-1447,1467-1484"]}
{"id": "C106", "title": "A predicate put together from others asks each of them at most once", "statement": "For every expression of predicates put together with union, intersection, diff, negate and empty, and every argument, contains asks exactly the parts that ||, && and ! from left to right need, in order, each at most as often as it is written in the expression (documented as O(f1 + f2) for each combinator), and answers what the expression means; with a union of a list the asking stops at the first yes; a part that is not asked may panic.", "quantifier": "all expressions of any size, all arguments, all answers of the parts", "why_tests_cant": "The number of evaluations is not visible in the answer, and the expressions are unbounded; tests compare answers of small expressions.", "anchors": ["src/datatypes/wrapper/predicate.rs:106-108,136-141,168-170,206-215,251-260,295-304,332-340,484-490,581-583"]}
{"id": "C107", "title": "The methods of AsyncM that take it clone fewer values than those that borrow it", "statement": "For every program put together from pure, new, from_result_or_default, recover_with, zip_with and either fmap, bind and apply or fmap_owned, bind_owned and apply_owned (documented as avoiding unnecessary cloning), the program with the owned methods, put together and run any number of times, makes fewer clones of values than the one with the borrowing methods, whatever order the parts of a join run in.", "quantifier": "all programs of any size, all values, all numbers of runs, all schedules", "why_tests_cant": "The number of clones is not visible in the result; tests compare results of small programs with values whose clones look the same.", "anchors": ["src/datatypes/async_monad.rs:538-546,573-581,620-658,700-750,785-827,867-892,896-947,951-1009,1013-1074,1112-1152,1221-1250"]}
{"id": "C108", "title": "A continuation program clones a value only where pure or an escape is reached", "statement": "For every program put together from pure, fmap, bind, apply and call_cc of ContT or Cont, and every continuation, a run makes exactly one clone for each pure and each escape that is reached, none for what an escape skips, and then calls the continuation exactly once with the value of the program, whatever the continuation does; lift calls it never and clones what was lifted once.", "quantifier": "all programs of any size, all values, all continuations, with effects or panics", "why_tests_cant": "The number of clones and of calls of the continuation is not visible in the result; tests run small programs with continuations that return their argument.", "anchors": ["src/transformers/cont_t.rs:107-112,137-144,172-188,213-226,256-272,314-333,343-345", "src/datatypes/cont.rs:304-309,357-361,431-439,540-548,620-627,670-682"]}
{"id": "C109", "title": "StateT clones a state only in get, put, lift and where two parts start from it", "statement": "For every program put together from pure, get, put, modify, new, lift, fmap_with, bind_with, combine_with and apply of StateT over Option<(S, A)>, putting it together clones no state and no value, and each run, from any state, gives the value of the program and clones exactly: one for each pure, get and put that is reached, both parts of what was lifted, and one state for each combine_with and apply, whose two parts both run even if the first fails; modify, fmap_with and bind_with clone nothing, and what a failure skips is not cloned; a LiftM is cloned in each run, and once more when bind_with is called on it.", "quantifier": "all programs of any size, all states and values", "why_tests_cant": "The number of clones is not visible in the result; tests run small programs over states whose clones look the same.", "anchors": ["src/transformers/state_t.rs:153-158,199-209,234-240,266-272,298-304,338-369,415-458,473-514,541-547,629-681,750-752"]}
