{
 "claims": [
  {
   "property": "C01",
   "status": "proved",
   "theorems": [
    "Rustica.PVec.PV.c01_accessors",
    "Rustica.PVec.PV.c01_constructors",
    "Rustica.PVec.PV.c01_from_iter",
    "Rustica.PVec.PV.c01_new_unit",
    "Rustica.PVec.PV.c01_round_trip"
   ],
   "note": "Every sequence of every length: len, is_empty, get at every index, iteration. c01_accessors covers first/last/index/try_get on every intact vector. c01_constructors: from_slice, From<Vec> and pvec! are from_iter."
  },
  {
   "property": "C02",
   "status": "partial",
   "theorems": [
    "Rustica.PVec.PV.c02_gap_reads",
    "Rustica.PVec.PV.c02_try_update_all",
    "Rustica.PVec.PV.c02_try_update_partial",
    "Rustica.PVec.PV.c02_update_all",
    "Rustica.PVec.PV.c02_update_contents_partial",
    "Rustica.PVec.PV.c02_update_false",
    "Rustica.PVec.PV.c02_update_iff",
    "Rustica.PVec.PV.c02_update_partial"
   ],
   "note": "Proved for every intact vector (all recorded lengths right), which c04_guarded_intact gives for every history without a damaging call. For all reachable vectors the claim is false (c02_update_false): a vector damaged by concat + split_at ignores updates in range. c02_gap_reads: update on a vector that a bad cut left with a gap. c02_update_all: for every reachable vector, damaged or not and panics included, update(i, x) panics exactly when get(i) does, and otherwise keeps the length and every other position and stores x at i exactly when i had an element. c02_update_iff: on a reachable vector that no call makes panic the claim holds exactly when every index below len has an element."
  },
  {
   "property": "C03",
   "status": "partial",
   "theorems": [
    "Rustica.PVec.PV.c03_extend_partial",
    "Rustica.PVec.PV.c03_gap_push",
    "Rustica.PVec.PV.c03_push_back_iff",
    "Rustica.PVec.PV.c03_push_back_partial",
    "Rustica.PVec.PV.c03_push_false",
    "Rustica.PVec.PV.c03_push_front_all",
    "Rustica.PVec.PV.c03_push_front_many_partial",
    "Rustica.PVec.PV.c03_push_front_partial"
   ],
   "note": "Proved for every intact vector and any number of repetitions. False for vectors damaged by pop_back after pop_front (c03_push_false). c03_gap_push: on a vector with a gap the new element lands right behind the readable elements and the gap stays. On every reachable vector whose counts are not too small for its two buffers (not Short; otherwise reads panic, C58): c03_push_front_all - push_front is right on all of them, damaged or not, and moves every position, gaps included, up by one; c03_push_back_iff - push_back appends exactly when the vector is BackReady, a condition on the stored fields."
  },
  {
   "property": "C04",
   "status": "proved",
   "theorems": [
    "Rustica.PVec.Guarded.c04_guarded_intact",
    "Rustica.PVec.History.c04_call_iff",
    "Rustica.PVec.History.c04_first_wrong",
    "Rustica.PVec.History.c04_growing_disciplined",
    "Rustica.PVec.History.c04_history",
    "Rustica.PVec.History.c04_persistent",
    "Rustica.PVec.History.c04_program",
    "Rustica.PVec.Legible.c04_reads",
    "Rustica.PVec.Move.c04_labels",
    "Rustica.PVec.c04_reads_false"
   ],
   "note": "Any program over a pool of versions using the listed operations (and, under a static discipline, pop_back/split/take/skip/insert/remove/concat with short operands) agrees with the list program in every version. c04_guarded_intact: every history in which no call meets a damaging condition leaves the vector intact. Absence of panics on these vectors: c58_no_panic_partial. Beyond the listed operations: Legible.c04_reads (any history without a pop at a stale end reads as a sequence and a gap); c04_reads_false shows that this wider claim needs its condition, it does not concern C04 itself. c04_program: programs using every operation (pop_front and concat of computed vectors included) agree with the list program, never panic and return the right elements if each call meets a run-time condition; c04_call_iff: that condition is exact for each call; c04_first_wrong: a program goes wrong first at the first call that does not meet it. c04_labels: the contents of every version of a program of element-moving calls are those of its run on 0, 1, 2, ... read through the labelling."
  },
  {
   "property": "C05",
   "status": "partial",
   "theorems": [
    "Rustica.PVec.PV.c05_concat_chain_partial",
    "Rustica.PVec.PV.c05_concat_exact",
    "Rustica.PVec.PV.c05_concat_false",
    "Rustica.PVec.PV.c05_concat_from_iter_partial",
    "Rustica.PVec.PV.c05_concat_height",
    "Rustica.PVec.PV.c05_concat_iff",
    "Rustica.PVec.PV.c05_concat_perm",
    "Rustica.PVec.PV.c05_concat_self_partial",
    "Rustica.PVec.PV.c05_concat_small_partial",
    "Rustica.PVec.PV.c05_gap_concat"
   ],
   "note": "False in general (operands come out swapped when the left tree is lower): c05_concat_false. c05_concat_exact/iff give the exact result for every intact vector; partial theorems give correct cases. c05_gap_concat: what concat does to vectors with gaps. c05_concat_height gives the height the result records; c05_concat_chain_partial covers any number of operands no higher than the first."
  },
  {
   "property": "C06",
   "status": "partial",
   "theorems": [
    "Rustica.PVec.PV.c06_drain_partial",
    "Rustica.PVec.PV.c06_gap_pop_back",
    "Rustica.PVec.PV.c06_pop_back_false",
    "Rustica.PVec.PV.c06_pop_back_iff",
    "Rustica.PVec.PV.c06_pop_back_intact",
    "Rustica.PVec.PV.c06_pop_back_partial"
   ],
   "note": "False (None on a non-empty vector after push_front): c06_pop_back_false. For every intact vector c06_pop_back_iff is the exact condition of correctness and c06_pop_back_intact the exact condition of later damage; Tame vectors are always correct. c06_gap_pop_back: the same for vectors with a gap."
  },
  {
   "property": "C07",
   "status": "partial",
   "theorems": [
    "Rustica.PVec.PV.c07_drain_exact",
    "Rustica.PVec.PV.c07_drain_iff",
    "Rustica.PVec.PV.c07_drain_partial",
    "Rustica.PVec.PV.c07_gap_pop_front",
    "Rustica.PVec.PV.c07_pop_front_exact",
    "Rustica.PVec.PV.c07_pop_front_false",
    "Rustica.PVec.PV.c07_pop_front_iff",
    "Rustica.PVec.PV.c07_pop_front_intact",
    "Rustica.PVec.PV.c07_pop_front_small_partial",
    "Rustica.PVec.PV.c07_reversal"
   ],
   "note": "False (order reversed, or elements dropped, when the suffix buffer becomes the prefix): c07_pop_front_false and c07_reversal. For every intact vector c07_pop_front_exact gives the exact result, c07_pop_front_iff the exact condition of correctness, c07_pop_front_intact that of damage. c07_gap_pop_front: the same for vectors with a gap. c07_drain_exact: emptying any collected vector with pop_front delivers every element in drainOrder (the elements after the last full block of 64 come first one first, then the others backwards); c07_drain_iff says exactly when that is the order of the elements."
  },
  {
   "property": "C08",
   "status": "partial",
   "theorems": [
    "Rustica.PVec.PV.c08_gap_split",
    "Rustica.PVec.PV.c08_gap_stays",
    "Rustica.PVec.PV.c08_halves_partial",
    "Rustica.PVec.PV.c08_part_heights",
    "Rustica.PVec.PV.c08_rejoin_buffers",
    "Rustica.PVec.PV.c08_rejoin_false",
    "Rustica.PVec.PV.c08_rejoin_iff",
    "Rustica.PVec.PV.c08_split_correct_iff",
    "Rustica.PVec.PV.c08_split_damage",
    "Rustica.PVec.PV.c08_split_false",
    "Rustica.PVec.PV.c08_split_iff",
    "Rustica.PVec.PV.c08_split_intact",
    "Rustica.PVec.PV.c08_split_partial",
    "Rustica.PVec.PV.c08_split_sound_partial"
   ],
   "note": "False after concat (recorded height below real depth loses elements): c08_split_false. For every intact vector c08_split_iff / c08_split_correct_iff / c08_split_intact give the exact conditions for each half and c08_split_damage what a bad cut does. Always exact on Tame vectors. c08_gap_split / c08_gap_stays: cuts of vectors that already have a gap. c08_rejoin_iff / c08_rejoin_buffers / c08_rejoin_false: joining the parts again."
  },
  {
   "property": "C09",
   "status": "partial",
   "theorems": [
    "Rustica.PVec.PV.c09_ends_partial",
    "Rustica.PVec.PV.c09_insert_exact",
    "Rustica.PVec.PV.c09_insert_false",
    "Rustica.PVec.PV.c09_insert_front_buffer",
    "Rustica.PVec.PV.c09_insert_iff",
    "Rustica.PVec.PV.c09_insert_partial",
    "Rustica.PVec.PV.c09_remove_exact",
    "Rustica.PVec.PV.c09_remove_false",
    "Rustica.PVec.PV.c09_remove_iff",
    "Rustica.PVec.PV.c09_remove_partial"
   ],
   "note": "False (through concat): c09_insert_false, c09_remove_false. Correct for every Tame vector; for every intact vector c09_insert_iff / c09_remove_iff give the exact condition when the cut is clean. c09_insert_exact and c09_remove_exact are exact for every intact vector, with no condition on the cut. c09_insert_front_buffer: the outcome inside the front buffer."
  },
  {
   "property": "C10",
   "status": "partial",
   "theorems": [
    "Rustica.PVec.Move.c10_layout",
    "Rustica.PVec.Move.c10_same_program_partial",
    "Rustica.PVec.PV.c10_canonical_partial",
    "Rustica.PVec.PV.c10_eq_contents",
    "Rustica.PVec.PV.c10_equality_false",
    "Rustica.PVec.PV.c10_equality_iff",
    "Rustica.PVec.PV.c10_equality_shape_false",
    "Rustica.PVec.PV.c10_equivalence",
    "Rustica.PVec.PV.c10_from_iter_partial",
    "Rustica.PVec.PV.c10_rebuilt_partial",
    "Rustica.PVec.PV.c10_same_layout_partial"
   ],
   "note": "First half false (derived equality compares representation, and counters): c10_equality_false, c10_equality_shape_false. Second half proved (c10_eq_contents). Vectors built by collecting are compared by contents. c10_equality_iff: intact vectors are == exactly when contents and representation (layout, height, version counter) coincide. c10_layout, c10_same_program_partial: the representation depends on the program only, so intact versions of one program run with different elements are == exactly when their contents are."
  },
  {
   "property": "C11",
   "status": "partial",
   "theorems": [
    "Rustica.PVec.PV.c11_collect",
    "Rustica.PVec.PV.c11_count_false",
    "Rustica.PVec.PV.c11_count_iff",
    "Rustica.PVec.PV.c11_count_le",
    "Rustica.PVec.PV.c11_next_is_get",
    "Rustica.PVec.PV.c11_next_partial",
    "Rustica.PVec.PV.c11_no_underflow",
    "Rustica.PVec.PV.c11_rest_partial",
    "Rustica.PVec.PV.c11_size_hint_partial"
   ],
   "note": "c11_next_is_get: for every vector value, call k of next returns get(k), None for ever from len on, and the hint is len-k without underflow. That exactly len() elements come out holds for intact vectors and fails for damaged ones (c11_count_false). For every vector value: c11_collect says what is delivered, c11_count_iff exactly when it is len() elements, c11_count_le never more."
  },
  {
   "property": "C12",
   "status": "partial",
   "theorems": [
    "Rustica.PVec.PV.c12_fold_left_partial",
    "Rustica.PVec.PV.c12_fold_right_partial",
    "Rustica.PVec.PV.c12_folds_all",
    "Rustica.PVec.PV.c12_folds_false",
    "Rustica.PVec.PV.c12_folds_iff",
    "Rustica.PVec.PV.c12_length_false",
    "Rustica.PVec.PV.c12_length_iff",
    "Rustica.PVec.PV.c12_length_partial",
    "Rustica.PVec.PV.c12_visits_partial"
   ],
   "note": "Proved for every intact vector; false for damaged ones (c12_length_false, c12_folds_false). For every vector value: c12_folds_all says what each fold visits; c12_length_iff and c12_folds_iff are the exact conditions."
  },
  {
   "property": "C13",
   "status": "proved",
   "theorems": [
    "Rustica.PVec.PV.c13_chunk",
    "Rustica.PVec.PV.c13_chunk_flatten",
    "Rustica.PVec.PV.c13_dedup",
    "Rustica.PVec.PV.c13_filter",
    "Rustica.PVec.PV.c13_filter_map",
    "Rustica.PVec.PV.c13_flat_map",
    "Rustica.PVec.PV.c13_map",
    "Rustica.PVec.PV.c13_partition",
    "Rustica.PVec.PV.c13_sorted",
    "Rustica.PVec.PV.c13_zip"
   ],
   "note": "For every vector value (no hypothesis); dedup, sorted and chunk against independent specifications."
  },
  {
   "property": "C14",
   "status": "partial",
   "theorems": [
    "Rustica.PVec.PV.c14_associative_false",
    "Rustica.PVec.PV.c14_associative_iff",
    "Rustica.PVec.PV.c14_associative_partial",
    "Rustica.PVec.PV.c14_functor",
    "Rustica.PVec.PV.c14_monoid_identity"
   ],
   "note": "Functor laws and identity laws proved (identities for every intact vector); associativity is false through C05 (c14_associative_false) and proved when no operand swap happens. c14_associative_iff is the exact condition for intact non-empty trees."
  },
  {
   "property": "C15",
   "status": "proved",
   "theorems": [
    "Rustica.PVec.PV.c15_generation_bound",
    "Rustica.PVec.PV.c15_generation_exact",
    "Rustica.PVec.PV.c15_no_overflow",
    "Rustica.PVec.PV.c15_overflow_possible",
    "Rustica.PVec.PV.c15_unbounded_false",
    "Rustica.PVec.PV.c15_unobservable"
   ],
   "note": "Counter bounded by the number of operations; 2^30 operations cannot overflow u32; unobservable. c15_unbounded_false shows the bound is needed."
  },
  {
   "property": "C16",
   "status": "proved",
   "theorems": [
    "Rustica.c16_choice",
    "Rustica.c16_first",
    "Rustica.c16_id",
    "Rustica.c16_last",
    "Rustica.c16_map",
    "Rustica.c16_max",
    "Rustica.c16_min",
    "Rustica.c16_option",
    "Rustica.c16_pair",
    "Rustica.c16_predicate",
    "Rustica.c16_product",
    "Rustica.c16_quad",
    "Rustica.c16_set",
    "Rustica.c16_string",
    "Rustica.c16_sum",
    "Rustica.c16_triple",
    "Rustica.c16_validated",
    "Rustica.c16_vec",
    "Rustica.c16_writer"
   ],
   "note": "For every instance with a Semigroup impl (String, Vec, tuples 2-4, Option, First, Last, Min, Max, Sum, Product, Predicate, Id, Writer, Choice, Validated, maps and sets for every iteration order). Component types are assumed associative; Min/Max assume a lawful Ord; Sum/Product assume associative + and *. PersistentVector is C05/C14."
  },
  {
   "property": "C17",
   "status": "partial",
   "theorems": [
    "Rustica.PVec.PV.c17_pvec_contents_partial",
    "Rustica.PVec.PV.c17_pvec_false",
    "Rustica.PVec.PV.c17_pvec_iff",
    "Rustica.c17_choice",
    "Rustica.c17_first",
    "Rustica.c17_id",
    "Rustica.c17_last",
    "Rustica.c17_max_false",
    "Rustica.c17_max_iff_partial",
    "Rustica.c17_min_false",
    "Rustica.c17_min_iff_partial",
    "Rustica.c17_min_unsigned_false",
    "Rustica.c17_predicate",
    "Rustica.c17_product",
    "Rustica.c17_string",
    "Rustica.c17_sum",
    "Rustica.c17_validated",
    "Rustica.c17_vec",
    "Rustica.c17_writer"
   ],
   "note": "False for Min and Max (empty is T::default()): witnesses c17_min_false, c17_max_false, and the exact condition in c17_min_iff_partial / c17_max_iff_partial. Proved for all other monoids. PersistentVector: on contents for every intact vector (c17_pvec_contents_partial); with the derived == false (c17_pvec_false), exactly when in c17_pvec_iff."
  },
  {
   "property": "C18",
   "status": "proved",
   "theorems": [
    "Rustica.PVec.PV.c18_pvec",
    "Rustica.c18_choice",
    "Rustica.c18_first",
    "Rustica.c18_id",
    "Rustica.c18_last",
    "Rustica.c18_map",
    "Rustica.c18_max",
    "Rustica.c18_min",
    "Rustica.c18_option",
    "Rustica.c18_pair",
    "Rustica.c18_predicate",
    "Rustica.c18_product",
    "Rustica.c18_quad",
    "Rustica.c18_set",
    "Rustica.c18_string",
    "Rustica.c18_sum",
    "Rustica.c18_triple",
    "Rustica.c18_validated",
    "Rustica.c18_vec",
    "Rustica.c18_writer"
   ],
   "note": "Every instance; for maps and sets also with different iteration orders."
  },
  {
   "property": "C19",
   "status": "partial",
   "theorems": [
    "Rustica.c19_combine_n",
    "Rustica.c19_combine_n_list",
    "Rustica.c19_combine_n_owned_false",
    "Rustica.c19_combine_n_owned_list",
    "Rustica.c19_combine_n_owned_partial",
    "Rustica.c19_repeat",
    "Rustica.c19_repeat_list",
    "Rustica.c19_zero"
   ],
   "note": "combine_n, repeat and power proved. combine_n_owned computes 2^(n-1) copies: c19_combine_n_owned_false, exact value in c19_combine_n_owned_list, right exactly for n <= 2."
  },
  {
   "property": "C20",
   "status": "proved",
   "theorems": [
    "Rustica.c20_append",
    "Rustica.c20_bracketing",
    "Rustica.c20_fold_map",
    "Rustica.c20_fold_with",
    "Rustica.c20_monoid",
    "Rustica.c20_semigroup"
   ],
   "note": "Including every bracketing and concatenation; combine_all_owned panics exactly on the empty sequence."
  },
  {
   "property": "C21",
   "status": "proved",
   "theorems": [
    "Rustica.c21_keys",
    "Rustica.c21_merge",
    "Rustica.c21_order_independent",
    "Rustica.c21_set_union"
   ],
   "note": "HashMap/BTreeMap/HashSet/BTreeSet merges, for every iteration order."
  },
  {
   "property": "C22",
   "status": "proved",
   "theorems": [
    "Rustica.c22_choice",
    "Rustica.c22_extrema",
    "Rustica.c22_find_first",
    "Rustica.c22_id",
    "Rustica.c22_option",
    "Rustica.c22_pvec",
    "Rustica.c22_pvec_contents",
    "Rustica.c22_queries",
    "Rustica.c22_result",
    "Rustica.c22_totals",
    "Rustica.c22_totals_int",
    "Rustica.c22_validated",
    "Rustica.c22_vec"
   ],
   "note": "For anything whose fold_left visits a list; then each Foldable instance (there is none for Maybe and Either)."
  },
  {
   "property": "C23",
   "status": "proved",
   "theorems": [
    "Rustica.c23_async",
    "Rustica.c23_choice",
    "Rustica.c23_cont",
    "Rustica.c23_either",
    "Rustica.c23_first",
    "Rustica.c23_functor_ext",
    "Rustica.c23_id",
    "Rustica.c23_io",
    "Rustica.c23_last",
    "Rustica.c23_max",
    "Rustica.c23_maybe",
    "Rustica.c23_min",
    "Rustica.c23_option",
    "Rustica.c23_product",
    "Rustica.c23_reader",
    "Rustica.c23_result",
    "Rustica.c23_state",
    "Rustica.c23_sum",
    "Rustica.c23_validated",
    "Rustica.c23_vec",
    "Rustica.c23_writer"
   ],
   "note": "Every Functor instance of the crate, effect types (State, Reader, Cont, IO, AsyncM) included."
  },
  {
   "property": "C24",
   "status": "partial",
   "theorems": [
    "Rustica.c24_choice_false",
    "Rustica.c24_choice_lift_iff",
    "Rustica.c24_choice_lift_partial",
    "Rustica.c24_choice_partial",
    "Rustica.c24_either",
    "Rustica.c24_id",
    "Rustica.c24_maybe",
    "Rustica.c24_option",
    "Rustica.c24_result",
    "Rustica.c24_validated",
    "Rustica.c24_vec",
    "Rustica.c24_writer"
   ],
   "note": "Proved for Option, Result, Vec, Maybe, Either, Id, Validated, Writer. Choice satisfies the four laws but lift2/lift3 enumerate in another order than apply: c24_choice_false, c24_choice_partial, c24_choice_lift_partial. c24_choice_lift_iff is exact: lift2 is repeated application for every function exactly when one of the two has at most one value or both are constant."
  },
  {
   "property": "C25",
   "status": "partial",
   "theorems": [
    "Rustica.c25_apply_from_bind",
    "Rustica.c25_apply_from_bind_validated_false",
    "Rustica.c25_async",
    "Rustica.c25_choice_assoc_iff",
    "Rustica.c25_choice_assoc_partial",
    "Rustica.c25_choice_bind_lazy",
    "Rustica.c25_choice_false",
    "Rustica.c25_choice_partial",
    "Rustica.c25_cont",
    "Rustica.c25_either",
    "Rustica.c25_id",
    "Rustica.c25_io",
    "Rustica.c25_maybe",
    "Rustica.c25_option",
    "Rustica.c25_reader",
    "Rustica.c25_result",
    "Rustica.c25_state",
    "Rustica.c25_validated",
    "Rustica.c25_writer"
   ],
   "note": "Proved for Option, Result, Maybe, Either, Id, Validated, Writer, State, Reader, Cont, IO, AsyncM. Choice::bind is not associative: c25_choice_false, with the exact condition in c25_choice_assoc_iff."
  },
  {
   "property": "C26",
   "status": "partial",
   "theorems": [
    "Rustica.c26_choice",
    "Rustica.c26_either_alt_false",
    "Rustica.c26_either_mplus_false",
    "Rustica.c26_error_types_partial",
    "Rustica.c26_guard",
    "Rustica.c26_maybe",
    "Rustica.c26_option",
    "Rustica.c26_result_false",
    "Rustica.c26_validated_alt_false",
    "Rustica.c26_validated_mplus",
    "Rustica.c26_vec"
   ],
   "note": "Proved for Option, Vec, Maybe, Choice and Validated's MonadPlus. One identity law fails for Result, Either and Validated's Alternative: witnesses, and exact conditions in c26_error_types_partial."
  },
  {
   "property": "C27",
   "status": "partial",
   "theorems": [
    "Rustica.c27_collect_exact",
    "Rustica.c27_collect_false",
    "Rustica.c27_collect_partial",
    "Rustica.c27_combine_errors",
    "Rustica.c27_errors",
    "Rustica.c27_sequence",
    "Rustica.c27_traverse_validated",
    "Rustica.c27_valid_iff",
    "Rustica.c27_values"
   ],
   "note": "apply, lift2, lift3, sequence, traverse_validated proved for all inputs. collect drops an Invalid without errors: c27_collect_false; exact behaviour in c27_collect_exact, claim under 'every Invalid has an error' in c27_collect_partial."
  },
  {
   "property": "C28",
   "status": "proved",
   "theorems": [
    "Rustica.c28_constructors",
    "Rustica.c28_fmap_invalid",
    "Rustica.c28_option",
    "Rustica.c28_panics",
    "Rustica.c28_queries",
    "Rustica.c28_recover",
    "Rustica.c28_recover_all",
    "Rustica.c28_result_round_trip"
   ],
   "note": "Queries, option and result conversions, iterators, recovery, for all values."
  },
  {
   "property": "C29",
   "status": "partial",
   "theorems": [
    "Rustica.c29_result_round_trip",
    "Rustica.c29_validated_round_trip_false",
    "Rustica.c29_validated_round_trip_partial",
    "Rustica.c29_validated_to_result"
   ],
   "note": "Result -> Validated -> Result proved for all results. The other direction keeps only the first error (c29_validated_round_trip_false); it holds for Valid and for exactly one error (c29_validated_round_trip_partial)."
  },
  {
   "property": "C30",
   "status": "proved",
   "theorems": [
    "Rustica.c30_bimap",
    "Rustica.c30_either_result",
    "Rustica.c30_either_result_cases",
    "Rustica.c30_either_validated",
    "Rustica.c30_error_category",
    "Rustica.c30_flatten_cases",
    "Rustica.c30_result_ext",
    "Rustica.c30_split_collect",
    "Rustica.c30_split_collect_valid",
    "Rustica.c30_wrap_adds_nothing",
    "Rustica.c30_wrap_flatten"
   ],
   "note": "All conversions of convert.rs, core.rs and the error instances. c30_wrap_adds_nothing says what wrapping builds."
  },
  {
   "property": "C31",
   "status": "proved",
   "theorems": [
    "Rustica.c31_accumulate",
    "Rustica.c31_app_display",
    "Rustica.c31_app_error",
    "Rustica.c31_builder",
    "Rustica.c31_builder_with_code",
    "Rustica.c31_error_chain",
    "Rustica.c31_into_context",
    "Rustica.c31_maybe_try_unwrap",
    "Rustica.c31_with_context"
   ],
   "note": "Every sequence of builder calls; Display/error_chain as strings."
  },
  {
   "property": "C32",
   "status": "partial",
   "theorems": [
    "Rustica.c32_contexts_exact",
    "Rustica.c32_contexts_false",
    "Rustica.c32_contexts_no_recover",
    "Rustica.c32_contexts_partial",
    "Rustica.c32_outcome"
   ],
   "note": "The Ok/Err outcome equals the eager program for every chain. The reported contexts are exact for chains in which no recovery precedes the final error (c32_contexts_partial, c32_contexts_no_recover); contexts of a recovered error do reappear (c32_contexts_false); c32_contexts_exact describes every chain."
  },
  {
   "property": "C33",
   "status": "proved",
   "theorems": [
    "Rustica.c33_chain_lazy",
    "Rustica.c33_context_lazy",
    "Rustica.c33_context_strict",
    "Rustica.c33_finish",
    "Rustica.c33_finish_value",
    "Rustica.c33_with_context_result"
   ],
   "note": "All pipelines and all effectful context generators."
  },
  {
   "property": "C34",
   "status": "proved",
   "theorems": [
    "Rustica.c34_pipeline_option",
    "Rustica.c34_pipeline_result",
    "Rustica.c34_runOps",
    "Rustica.c34_sequence",
    "Rustica.c34_sequence_options",
    "Rustica.c34_sequence_results",
    "Rustica.c34_sequence_with_error",
    "Rustica.c34_sequence_with_error_panics",
    "Rustica.c34_traverse_cases",
    "Rustica.c34_traverse_err",
    "Rustica.c34_traverse_ok",
    "Rustica.c34_traverse_validated"
   ],
   "note": "All lists and all effectful step functions, call traces included."
  },
  {
   "property": "C35",
   "status": "proved",
   "theorems": [
    "Rustica.c35_compose_all",
    "Rustica.c35_compose_pipe",
    "Rustica.c35_fan_out",
    "Rustica.c35_filter_map",
    "Rustica.c35_filter_map_collect",
    "Rustica.c35_fold_with",
    "Rustica.c35_option_result",
    "Rustica.c35_pipeline",
    "Rustica.c35_transform",
    "Rustica.c35_zip_with"
   ],
   "note": "All lists, functions, arguments."
  },
  {
   "property": "C36",
   "status": "proved",
   "theorems": [
    "Rustica.c36_again",
    "Rustica.c36_apply",
    "Rustica.c36_eval_exec",
    "Rustica.c36_get_put",
    "Rustica.c36_modify",
    "Rustica.c36_monad_laws",
    "Rustica.c36_panics",
    "Rustica.c36_primitives",
    "Rustica.c36_readme_counter",
    "Rustica.c36_run_new",
    "Rustica.c36_to_from_state",
    "Rustica.c36_total",
    "Rustica.c36_try",
    "Rustica.c36_try_with_context"
   ],
   "note": "All states, values and state-dependent continuations, computations that panic included (c36_panics)."
  },
  {
   "property": "C37",
   "status": "partial",
   "theorems": [
    "Rustica.c37_apply_false",
    "Rustica.c37_assoc_false",
    "Rustica.c37_assoc_iff",
    "Rustica.c37_bind_runs",
    "Rustica.c37_combine_exact",
    "Rustica.c37_combine_false",
    "Rustica.c37_combine_iff",
    "Rustica.c37_combine_mixed_false",
    "Rustica.c37_combine_partial",
    "Rustica.c37_combine_states",
    "Rustica.c37_fmap",
    "Rustica.c37_left_identity_id",
    "Rustica.c37_monad_laws_false",
    "Rustica.c37_monad_laws_partial",
    "Rustica.c37_primitives",
    "Rustica.c37_pure_runs",
    "Rustica.c37_right_identity_iff",
    "Rustica.c37_run_panics_false",
    "Rustica.c37_runs_iff",
    "Rustica.c37_try",
    "Rustica.c37_try_with_context"
   ],
   "note": "Monad laws hold for the function representation over every lawful base (c37_monad_laws_partial) and fail for stored-value representations (c37_monad_laws_false); apply/combine thread the state only partly (c37_apply_false, c37_combine_false, c37_combine_partial); running can panic (c37_run_panics_false, c37_combine_mixed_false). c37_combine_exact says what combine_with does with two effects for every base; c37_combine_iff: over Id it agrees with the threaded definition exactly when the second computation gives the same state and combined value from the original and from the reached state. Right identity holds exactly for the variants other than Pure (c37_right_identity_iff); associativity fails through a Pure (c37_assoc_false), over Id exactly where one is reached and what follows runs (c37_assoc_iff)."
  },
  {
   "property": "C38",
   "status": "proved",
   "theorems": [
    "Rustica.c38_lift",
    "Rustica.c38_readerT_combine",
    "Rustica.c38_readerT_env",
    "Rustica.c38_readerT_monad",
    "Rustica.c38_readerT_with",
    "Rustica.c38_reader_env",
    "Rustica.c38_reader_monad",
    "Rustica.c38_run_new",
    "Rustica.c38_try"
   ],
   "note": "All environments, computations, and all lawful base monads."
  },
  {
   "property": "C39",
   "status": "proved",
   "theorems": [
    "Rustica.c39_apply",
    "Rustica.c39_call_cc_branch",
    "Rustica.c39_call_cc_escape",
    "Rustica.c39_call_cc_transparent",
    "Rustica.c39_contT_monad",
    "Rustica.c39_cont_call_cc",
    "Rustica.c39_cont_monad",
    "Rustica.c39_run_new",
    "Rustica.c39_to_from"
   ],
   "note": "All computations and all final continuations, call_cc included."
  },
  {
   "property": "C40",
   "status": "partial",
   "theorems": [
    "Rustica.c40_contT_bind_false",
    "Rustica.c40_contT_exact",
    "Rustica.c40_contT_pure_false",
    "Rustica.c40_readerT",
    "Rustica.c40_stateT_partial",
    "Rustica.c40_stateT_pure_false",
    "Rustica.c40_stateT_pure_partial"
   ],
   "note": "ReaderT: both laws proved. StateT: bind law proved, pure law false (c40_stateT_pure_false) with exact behaviour. ContT: both false (c40_contT_pure_false, c40_contT_bind_false); c40_contT_exact says what lift does."
  },
  {
   "property": "C41",
   "status": "proved",
   "theorems": [
    "Rustica.c41_bracketing",
    "Rustica.c41_log",
    "Rustica.c41_primitives"
   ],
   "note": "Induction over all programs built from pure, tell, fmap, bind, lift2, lift3, apply, for every lawful log monoid."
  },
  {
   "property": "C42",
   "status": "partial",
   "theorems": [
    "Rustica.c42_apply",
    "Rustica.c42_combinators",
    "Rustica.c42_eager_false",
    "Rustica.c42_lazy_partial",
    "Rustica.c42_monad_laws",
    "Rustica.c42_order_false",
    "Rustica.c42_order_partial"
   ],
   "note": "Constructing IO::new / delay / composing effectful computations runs nothing (c42_lazy_partial) and running executes in program order. fmap and bind on IO::Pure run the closure at construction: c42_eager_false, c42_order_false. Monad laws and combinators proved."
  },
  {
   "property": "C43",
   "status": "proved",
   "theorems": [
    "Rustica.c43_is_pure",
    "Rustica.c43_recover",
    "Rustica.c43_recover_with_total",
    "Rustica.c43_run_async",
    "Rustica.c43_sequence_composable",
    "Rustica.c43_try_get",
    "Rustica.c43_try_get_iff"
   ],
   "note": "All computations and all panics; the unwinding is modelled by an explicit panic outcome."
  },
  {
   "property": "C44",
   "status": "partial",
   "theorems": [
    "Rustica.c44_after_first_partial",
    "Rustica.c44_crash_permanent",
    "Rustica.c44_once",
    "Rustica.c44_panic_exact",
    "Rustica.c44_progress",
    "Rustica.c44_race_false",
    "Rustica.c44_sequential_partial",
    "Rustica.c44_value"
   ],
   "note": "Every interleaving of any number of threads: the body runs at most once (c44_once) and every value returned is the body's (c44_value). A second thread entering during the first run panics (c44_race_false); c44_panic_exact is the exact condition; sequential use never panics (c44_sequential_partial, c44_after_first_partial)."
  },
  {
   "property": "C45",
   "status": "proved",
   "theorems": [
    "Rustica.c45_both_panic",
    "Rustica.c45_disjoint",
    "Rustica.c45_fast_paths",
    "Rustica.c45_from_result",
    "Rustica.c45_monad_laws",
    "Rustica.c45_panic_effects",
    "Rustica.c45_panics",
    "Rustica.c45_recover_with",
    "Rustica.c45_schedules",
    "Rustica.c45_sequential",
    "Rustica.c45_shared_iff",
    "Rustica.c45_shared_log",
    "Rustica.c45_synchronous"
   ],
   "note": "Futures as trees of polls, any schedule of join. c45_both_panic: which panic is reported when both parts panic, and with which effects. Parts that share a log: the log is an interleaving of what the two write, under every schedule, and every interleaving comes from a schedule (c45_shared_log, c45_shared_iff)."
  },
  {
   "property": "C46",
   "status": "proved",
   "theorems": [
    "Rustica.c46_agree",
    "Rustica.c46_agree_epoch",
    "Rustica.c46_once",
    "Rustica.c46_poisoned",
    "Rustica.c46_produced",
    "Rustica.c46_progress",
    "Rustica.c46_pure"
   ],
   "note": "Every interleaving of any number of threads and operations (get_or_compute, clear, ...); the closure is assumed not to re-enter the memoizer (it would deadlock)."
  },
  {
   "property": "C47",
   "status": "proved",
   "theorems": [
    "Rustica.c47_fmap",
    "Rustica.c47_laws",
    "Rustica.c47_modify",
    "Rustica.c47_set_eq",
    "Rustica.c47_set_get_always"
   ],
   "note": "All lenses satisfying the lens laws and their compositions."
  },
  {
   "property": "C48",
   "status": "proved",
   "theorems": [
    "Rustica.c48_laws",
    "Rustica.c48_modify",
    "Rustica.c48_modify_functor",
    "Rustica.c48_set"
   ],
   "note": "All prisms satisfying the prism laws and their compositions."
  },
  {
   "property": "C49",
   "status": "partial",
   "theorems": [
    "Rustica.c49_compose_assoc",
    "Rustica.c49_focus_partial",
    "Rustica.c49_iso",
    "Rustica.c49_iso_ext",
    "Rustica.c49_iso_lens",
    "Rustica.c49_iso_lens_compose",
    "Rustica.c49_iso_prism",
    "Rustica.c49_iso_prism_compose",
    "Rustica.c49_lifted_iso_false",
    "Rustica.c49_modify_focus",
    "Rustica.c49_result_either",
    "Rustica.c49_set_focus_exact",
    "Rustica.c49_set_focus_false"
   ],
   "note": "Iso laws, composition, IsoLens, modify_focus and IsoPrism proved. set_focus stores the whole old source as the context, so on an arbitrary iso it changes more than the focus (c49_set_focus_false); it changes only the focus exactly when the context equals the source (c49_set_focus_exact), as in the documented encoding (c49_focus_partial). The lifted iso inside compose is not an isomorphism (c49_lifted_iso_false) but the prism laws hold."
  },
  {
   "property": "C50",
   "status": "proved",
   "theorems": [
    "Rustica.c50_changes",
    "Rustica.c50_construct",
    "Rustica.c50_dedup",
    "Rustica.c50_flatten",
    "Rustica.c50_flatten_sorted",
    "Rustica.c50_queries",
    "Rustica.c50_remove",
    "Rustica.c50_sequence",
    "Rustica.c50_swap"
   ],
   "note": "List semantics of every operation, exact panic conditions of remove/swap/flatten and agreement with the try_ versions."
  },
  {
   "property": "C51",
   "status": "proved",
   "theorems": [
    "Rustica.c51_arrow",
    "Rustica.c51_category",
    "Rustica.c51_compose_apply",
    "Rustica.c51_effects_order",
    "Rustica.c51_helpers",
    "Rustica.c51_pipe_compose",
    "Rustica.c51_pure",
    "Rustica.c51_second_combine_split",
    "Rustica.c51_sequence"
   ],
   "note": "Morphisms with effects; pipe!/compose! chains of any length."
  },
  {
   "property": "C52",
   "status": "proved",
   "theorems": [
    "Rustica.c52_laws",
    "Rustica.c52_membership",
    "Rustica.c52_operators"
   ],
   "note": "Membership and the Boolean algebra laws as equalities of predicates."
  },
  {
   "property": "C53",
   "status": "proved",
   "theorems": [
    "Rustica.c53_id"
   ],
   "note": "Id is the only Comonad instance; its duplicate returns Self, so agreement with extend(identity) is up to one layer."
  },
  {
   "property": "C54",
   "status": "proved",
   "theorems": [
    "Rustica.c54_either",
    "Rustica.c54_either_sides",
    "Rustica.c54_validated",
    "Rustica.c54_validated_sides"
   ],
   "note": "Either and Validated (the Bifunctor instances)."
  },
  {
   "property": "C55",
   "status": "proved",
   "theorems": [
    "Rustica.c55_catch_assoc",
    "Rustica.c55_option",
    "Rustica.c55_recover",
    "Rustica.c55_result",
    "Rustica.c55_throw_bind"
   ],
   "note": "All values, errors, handlers."
  },
  {
   "property": "C56",
   "status": "partial",
   "theorems": [
    "Rustica.c56_fmap_error_partial",
    "Rustica.c56_maybe_exact",
    "Rustica.c56_maybe_false"
   ],
   "note": "Proved for Result, Either, Validated; false for Maybe (c56_maybe_false), exact behaviour in c56_maybe_exact."
  },
  {
   "property": "C57",
   "status": "partial",
   "theorems": [
    "Rustica.c57_double_drop_false",
    "Rustica.c57_double_drop_witness_false",
    "Rustica.c57_plain_partial"
   ],
   "note": "False for every owning value and every continuation that consumes its argument: the clone's resource is released twice (c57_double_drop_false). Plain data: c57_plain_partial."
  },
  {
   "property": "C58",
   "status": "partial",
   "theorems": [
    "Rustica.PVec.PV.c58_each_false",
    "Rustica.PVec.PV.c58_elements",
    "Rustica.PVec.PV.c58_get_panics_iff",
    "Rustica.PVec.PV.c58_never_panics_iff",
    "Rustica.PVec.PV.c58_no_panic_false",
    "Rustica.PVec.PV.c58_no_panic_partial",
    "Rustica.PVec.PV.c58_panics_iff",
    "Rustica.PVec.PV.c58_reach_partial"
   ],
   "note": "False for histories with pop_back after other removals (c58_no_panic_false: get panics). For every reachable vector c58_panics_iff gives the exact arguments on which each operation panics (pop_back never does) and c58_never_panics_iff the exact vectors on which none does. c58_no_panic_partial: no operation panics on any vector whose history confines pop_back to vectors that still have elements outside the prefix buffer or are intact. c58_elements: whether and how a call panics does not depend on the elements."
  },
  {
   "property": "C59",
   "status": "partial",
   "theorems": [
    "Rustica.PVec.PV.c59_calls_partial",
    "Rustica.PVec.PV.c59_from_iter_partial",
    "Rustica.PVec.PV.c59_joined_partial",
    "Rustica.PVec.PV.c59_log_false",
    "Rustica.PVec.PV.c59_no_bound",
    "Rustica.PVec.PV.c59_push_back_bound_partial",
    "Rustica.PVec.PV.c59_push_back_exact"
   ],
   "note": "False of the code: push_back adds one tree level per 31 leaves, so n push_backs give a path of exactly 1+((n-1)/64+29)/31 nodes (c59_push_back_exact), and no logarithmic bound exists (c59_log_false). Proved: vectors built in one go by from_iter are logarithmic (c59_from_iter_partial). For every call history c59_calls_partial bounds the nodes read by the levels the calls pay for (one per 1984 pushes, three per concat). c59_no_bound: after take no bound in terms of the length holds at all. Vectors from which nothing was taken away read fewer than 2*len nodes (c59_joined_partial)."
  },
  {
   "property": "C60",
   "status": "partial",
   "theorems": [
    "Rustica.PVec.PV.c60_children_false",
    "Rustica.PVec.PV.c60_children_joins_partial",
    "Rustica.PVec.PV.c60_children_partial",
    "Rustica.PVec.PV.c60_concat_width",
    "Rustica.PVec.PV.c60_leaves"
   ],
   "note": "Element capacities proved for every reachable vector (c60_leaves). The bound of 32 children is false: concat merges root children without splitting, so branches of any width are reachable (c60_children_false). Proved for all histories without concat/insert/remove (c60_children_partial). With concat, c60_children_joins_partial bounds the children by 32 for each joined vector."
  },
  {
   "property": "C61",
   "status": "proved",
   "theorems": [
    "Rustica.PVec.Node.c61_adjusted_latent",
    "Rustica.PVec.Node.c61_bare_size",
    "Rustica.PVec.Node.c61_fallback_exact",
    "Rustica.PVec.Node.c61_fallback_latent",
    "Rustica.PVec.Node.c61_regular",
    "Rustica.PVec.Node.c61_regular_path",
    "Rustica.PVec.Node.c61_regular_range",
    "Rustica.PVec.Node.c61_relaxed",
    "Rustica.PVec.Node.c61_removal",
    "Rustica.PVec.Node.c61_table_update",
    "Rustica.PVec.PV.c61_size_tables"
   ],
   "note": "For every reachable vector, including ones with wrong recorded lengths. The code for branches without a table never runs; c61_regular, c61_regular_range, c61_regular_path, c61_bare_size say what it would do, and c61_fallback_latent, c61_adjusted_latent that two of its heights are off by one."
  },
  {
   "property": "C62",
   "status": "partial",
   "theorems": [
    "Rustica.c62_try_false",
    "Rustica.c62_try_panics",
    "Rustica.c62_try_partial",
    "Rustica.c62_value",
    "Rustica.c62_vector"
   ],
   "note": "value/into_value proved for all 15 instances. try_value/try_into_value are safe for Option, Result, PersistentVector and the types that always hold a value; false of the code for First, Last, Maybe, Either, Validated and Choice, which keep the default body and panic when empty (c62_try_false, exact behaviour in c62_try_panics)."
  },
  {
   "property": "C63",
   "status": "proved",
   "theorems": [
    "Rustica.c63_either",
    "Rustica.c63_maybe_accessors",
    "Rustica.c63_maybe_conversions",
    "Rustica.c63_maybe_tap",
    "Rustica.c63_single",
    "Rustica.c63_wrappers"
   ],
   "note": ""
  },
  {
   "property": "C64",
   "status": "proved",
   "theorems": [
    "Rustica.c64_first",
    "Rustica.c64_last",
    "Rustica.c64_max",
    "Rustica.c64_min",
    "Rustica.c64_predicate",
    "Rustica.c64_product",
    "Rustica.c64_sum"
   ],
   "note": "Element operations are assumed lawful where the meaning needs it (total order for Min/Max, monoid laws for Sum/Product)."
  },
  {
   "property": "C65",
   "status": "proved",
   "theorems": [
    "Rustica.c65_iterators",
    "Rustica.c65_map_with_key",
    "Rustica.c65_mutation",
    "Rustica.c65_single"
   ],
   "note": "A loop assigning through a mutable iterator is modelled as the map it performs; the hash map of to_map_with_key is an association list."
  },
  {
   "property": "C66",
   "status": "proved",
   "theorems": [
    "Rustica.c66_ext",
    "Rustica.c66_owned",
    "Rustica.c66_panics",
    "Rustica.c66_thunk"
   ],
   "note": "Computations and closures are effectful code that may panic; a panic ends the call where it happens (c66_panics)."
  },
  {
   "property": "C67",
   "status": "proved",
   "theorems": [
    "Rustica.c67_effects",
    "Rustica.c67_panics",
    "Rustica.c67_settles",
    "Rustica.c67_shared_log"
   ],
   "note": "futures::join_all is modelled as polling the futures concurrently under a schedule (trusted). Calls that write to one log write all their entries once and in their order (c67_shared_log); a panic of one call comes out of the map (c67_panics)."
  },
  {
   "property": "C68",
   "status": "proved",
   "theorems": [
    "Rustica.c68_ap2",
    "Rustica.c68_filter_map",
    "Rustica.c68_is_empty",
    "Rustica.c68_many",
    "Rustica.c68_pure_ext",
    "Rustica.c68_try_bind"
   ],
   "note": "For Choice, many keeps only the first alternative (stated in the theorem)."
  },
  {
   "property": "C69",
   "status": "proved",
   "theorems": [
    "Rustica.c69_bind_choice",
    "Rustica.c69_bind_either",
    "Rustica.c69_bind_id",
    "Rustica.c69_bind_maybe",
    "Rustica.c69_bind_option",
    "Rustica.c69_bind_result",
    "Rustica.c69_bind_validated",
    "Rustica.c69_bind_writer",
    "Rustica.c69_fmap_choice",
    "Rustica.c69_fmap_either",
    "Rustica.c69_fmap_first",
    "Rustica.c69_fmap_id",
    "Rustica.c69_fmap_last",
    "Rustica.c69_fmap_max",
    "Rustica.c69_fmap_maybe",
    "Rustica.c69_fmap_min",
    "Rustica.c69_fmap_option",
    "Rustica.c69_fmap_product",
    "Rustica.c69_fmap_result",
    "Rustica.c69_fmap_sum",
    "Rustica.c69_fmap_validated",
    "Rustica.c69_fmap_vec",
    "Rustica.c69_fmap_writer",
    "Rustica.c69_lift_choice",
    "Rustica.c69_lift_either",
    "Rustica.c69_lift_id",
    "Rustica.c69_lift_maybe",
    "Rustica.c69_lift_option",
    "Rustica.c69_lift_result",
    "Rustica.c69_lift_validated",
    "Rustica.c69_lift_vec",
    "Rustica.c69_lift_writer",
    "Rustica.c69_log",
    "Rustica.c69_panic"
   ],
   "note": "Calls of closures with arbitrary effects and panics, for every functor/applicative/monad instance; Choice::bind is exact."
  },
  {
   "property": "C70",
   "status": "partial",
   "theorems": [
    "Rustica.c70_all",
    "Rustica.c70_any",
    "Rustica.c70_find",
    "Rustica.c70_fold_choice",
    "Rustica.c70_fold_id",
    "Rustica.c70_fold_map",
    "Rustica.c70_fold_option",
    "Rustica.c70_fold_option_false",
    "Rustica.c70_fold_option_partial",
    "Rustica.c70_fold_result",
    "Rustica.c70_fold_validated",
    "Rustica.c70_fold_vec",
    "Rustica.c70_reduce"
   ],
   "note": "All but the short-circuit claim of fold_option, which is false of the code: every element is asked also after a None (c70_fold_option_false); exact behaviour in c70_fold_option_partial."
  },
  {
   "property": "C71",
   "status": "proved",
   "theorems": [
    "Rustica.PredicateE.c71_diff",
    "Rustica.PredicateE.c71_intersection",
    "Rustica.PredicateE.c71_negate",
    "Rustica.PredicateE.c71_pure",
    "Rustica.PredicateE.c71_second_not_asked",
    "Rustica.PredicateE.c71_union"
   ],
   "note": "Evaluation order and short-circuiting of the predicate combinators for arbitrary effects and panics."
  },
  {
   "property": "C72",
   "status": "partial",
   "theorems": [
    "Rustica.c72_lens_modify",
    "Rustica.c72_lens_modify_panic",
    "Rustica.c72_lens_set",
    "Rustica.c72_prism_modify_false",
    "Rustica.c72_prism_modify_partial",
    "Rustica.c72_prism_set"
   ],
   "note": "All but 'Prism::modify always calls the transformation', which is false of the code when the preview fails (c72_prism_modify_false); exact log in c72_prism_modify_partial. Lens::modify reads the focus twice."
  },
  {
   "property": "C73",
   "status": "partial",
   "theorems": [
    "Rustica.PVec.PV.c73_filter",
    "Rustica.PVec.PV.c73_filter_map",
    "Rustica.PVec.PV.c73_flat_map",
    "Rustica.PVec.PV.c73_fold",
    "Rustica.PVec.PV.c73_fold_right_any",
    "Rustica.PVec.PV.c73_fold_right_false",
    "Rustica.PVec.PV.c73_fold_right_partial",
    "Rustica.PVec.PV.c73_map",
    "Rustica.PVec.PV.c73_partition",
    "Rustica.PVec.PV.c73_pure",
    "Rustica.Validated.c73_bimap",
    "Rustica.Validated.c73_from_option_with",
    "Rustica.Validated.c73_recover_all",
    "Rustica.Validated.c73_recover_all_at_once",
    "Rustica.Validated.c73_sequence"
   ],
   "note": "Everything for all values and vectors except fold_right, which skips holes of a damaged vector (c73_fold_right_false); exact on every vector value in c73_fold_right_any and on intact vectors in c73_fold_right_partial."
  },
  {
   "property": "C74",
   "status": "partial",
   "theorems": [
    "Rustica.c74_app_error_false",
    "Rustica.c74_app_error_partial",
    "Rustica.c74_choice_false",
    "Rustica.c74_choice_partial",
    "Rustica.c74_choice_text",
    "Rustica.c74_composable_error_false",
    "Rustica.c74_error_text",
    "Rustica.c74_errors",
    "Rustica.c74_maybe_error_false",
    "Rustica.c74_maybe_error_partial",
    "Rustica.c74_vector_equal_false",
    "Rustica.c74_vector_false",
    "Rustica.c74_vector_partial",
    "Rustica.c74_vector_text",
    "Rustica.c74_wrapper_text",
    "Rustica.c74_wrappers"
   ],
   "note": "Exact texts and injectivity proved for Sum, Product, Min, Max, First, Last, IOError, ErrorContext, PVecError. False of the code for MaybeError, Choice, AppError, ComposableError and PersistentVector (c74_*_false); the _partial theorems give the exact conditions (payloads that print as words, self-delimiting messages, inline vectors)."
  },
  {
   "property": "C75",
   "status": "partial",
   "theorems": [
    "Rustica.c75_contra_compose_false",
    "Rustica.c75_contra_compose_partial",
    "Rustica.c75_contravariant",
    "Rustica.c75_identity_nat",
    "Rustica.c75_maybe_to_either",
    "Rustica.c75_sequence"
   ],
   "note": "contra_compose ignores its second argument (c75_contra_compose_false), so it does not compose; what it does is c75_contra_compose_partial. The other methods are proved for every lawful instance."
  },
  {
   "property": "C76",
   "status": "partial",
   "theorems": [
    "Rustica.PVec.Ledger.c76_ledger_partial",
    "Rustica.PVec.Made.c76_pop_back_partial",
    "Rustica.PVec.Made.c76_pop_front",
    "Rustica.PVec.Made.c76_reads",
    "Rustica.PVec.Made.c76_split",
    "Rustica.PVec.Made.c76_to_vec",
    "Rustica.PVec.c76_pop_back_false"
   ],
   "note": "Proved for every history without exclusions: get, iteration, split_at and pop_front. False for pop_back: its element can come back after more pushes (c76_pop_back_false); what always holds is that the element returned was put in (c76_pop_back_partial). c76_ledger_partial is the full claim, all pops together with all that can be read, for histories in which no pop_back meets a vector with wrong lengths or a stale end."
  },
  {
   "property": "C77",
   "status": "partial",
   "theorems": [
    "Rustica.Parse.c77_and_then",
    "Rustica.Parse.c77_apply",
    "Rustica.Parse.c77_basic",
    "Rustica.Parse.c77_error",
    "Rustica.Parse.c77_functor",
    "Rustica.Parse.c77_label_skip",
    "Rustica.Parse.c77_map",
    "Rustica.Parse.c77_monad",
    "Rustica.Parse.c77_optional",
    "Rustica.Parse.c77_or",
    "Rustica.Parse.c77_or_false",
    "Rustica.Parse.c77_or_laws",
    "Rustica.Parse.c77_within"
   ],
   "note": "All clauses are proved for all parsers except the one about or, which is false: or returns the parses of both parsers also when the first succeeds (c77_or says exactly what it returns, c77_or_false is the witness). A parser is modelled with a bound on the rounds of many; Ends says what the call returns, Hangs that it does not return."
  },
  {
   "property": "C78",
   "status": "partial",
   "theorems": [
    "Rustica.Parse.c78_between",
    "Rustica.Parse.c78_chainl1",
    "Rustica.Parse.c78_hangs_iff",
    "Rustica.Parse.c78_many",
    "Rustica.Parse.c78_many1",
    "Rustica.Parse.c78_many_iff",
    "Rustica.Parse.c78_many_many",
    "Rustica.Parse.c78_run",
    "Rustica.Parse.c78_total_false",
    "Rustica.Parse.c78_total_partial"
   ],
   "note": "many returns exactly the greedy repetition (c78_many_iff) and runs for ever exactly when it reaches an input on which the parser succeeds without consuming (c78_hangs_iff). The claim that it always ends is false (c78_total_false, c78_many_many); c78_total_partial proves it for parsers that always consume."
  },
  {
   "property": "C79",
   "status": "partial",
   "theorems": [
    "Rustica.Parse.c79_keyword",
    "Rustica.Parse.c79_keyword_false",
    "Rustica.Parse.c79_queries",
    "Rustica.Parse.c79_reads",
    "Rustica.Parse.c79_round_trip",
    "Rustica.Parse.c79_sound",
    "Rustica.Parse.c79_total",
    "Rustica.Parse.c79_twice",
    "Rustica.Parse.c79_unambiguous_false",
    "Rustica.Parse.c79_where_kept_false",
    "Rustica.Parse.c79_where_lost"
   ],
   "note": "Reading (c79_reads), soundness of every parse (c79_sound), round trip (c79_round_trip, c79_queries) and termination (c79_total) are proved for all texts. False: a WHERE clause that cannot be read is kept as an empty one (c79_where_lost, c79_where_kept_false), one-column SELECTs come out twice (c79_twice, c79_unambiguous_false), keywords outside ASCII are cut by bytes (c79_keyword_false). The Unicode tests are parameters with the three conditions of CharClass.Ok."
  },
  {
   "property": "C80",
   "status": "partial",
   "theorems": [
    "Rustica.Migration.c80_add",
    "Rustica.Migration.c80_bind_false",
    "Rustica.Migration.c80_bind_iff",
    "Rustica.Migration.c80_bind_lazy",
    "Rustica.Migration.c80_dedup",
    "Rustica.Migration.c80_errors",
    "Rustica.Migration.c80_filter_false",
    "Rustica.Migration.c80_filter_iff",
    "Rustica.Migration.c80_flatten_sorted_false",
    "Rustica.Migration.c80_flatten_sorted_iff",
    "Rustica.Migration.c80_fmap_alternatives_false",
    "Rustica.Migration.c80_fmap_alternatives_iff",
    "Rustica.Migration.c80_has_alternatives_false",
    "Rustica.Migration.c80_identity",
    "Rustica.Migration.c80_map_collect_false",
    "Rustica.Migration.c80_map_collect_iff",
    "Rustica.Migration.c80_map_keep_first",
    "Rustica.Migration.c80_queries",
    "Rustica.Migration.c80_remove_index",
    "Rustica.Migration.c80_remove_value_false",
    "Rustica.Migration.c80_remove_value_iff",
    "Rustica.Migration.c80_swap_false",
    "Rustica.Migration.c80_swap_iff",
    "Rustica.Migration.c80_try_value_false",
    "Rustica.Migration.c80_try_value_iff"
   ],
   "note": "False of the code for the replacements in section 5 of DESIGN.md (witnesses c80_…_false); for each of those c80_…_iff gives the exact condition under which old and new code agree. Agreement on all inputs: queries, dedup, dedup_by_key, the keep-first map, add_alternatives, removal by position, bind_lazy by flat_map, value/into_value, the error helpers. compose_when/then_if and result_to_either/either_to_result are one model definition each because the deprecated function only calls the other."
  },
  {
   "property": "C81",
   "status": "partial",
   "theorems": [
    "Rustica.ErrorExample.c81_bulk",
    "Rustica.ErrorExample.c81_latest_first_false",
    "Rustica.ErrorExample.c81_latest_first_iff",
    "Rustica.ErrorExample.c81_pipeline",
    "Rustica.ErrorExample.c81_recover",
    "Rustica.ErrorExample.c81_two_places"
   ],
   "note": "What both pipelines print is proved for every text and every number reader (c81_pipeline, c81_recover), and every context is printed once (c81_two_places). \"Latest first\" is false of the code when a context is given to the error inside the pipeline after one given to the pipeline (c81_latest_first_false, on the example's own text); c81_latest_first_iff is the exact condition."
  },
  {
   "property": "C82",
   "status": "proved",
   "theorems": [
    "Rustica.QC.c82_arithmetic",
    "Rustica.QC.c82_test_applicative",
    "Rustica.QC.c82_test_bifunctor",
    "Rustica.QC.c82_test_bifunctor_generator",
    "Rustica.QC.c82_test_bifunctor_unlimited_panics",
    "Rustica.QC.c82_test_foldable",
    "Rustica.QC.c82_test_functor",
    "Rustica.QC.c82_test_maybe",
    "Rustica.QC.c82_test_maybe_discards_needless",
    "Rustica.QC.c82_test_monad",
    "Rustica.QC.c82_test_monoid",
    "Rustica.QC.c82_test_option_result_applicative",
    "Rustica.QC.c82_test_option_result_functor",
    "Rustica.QC.c82_test_option_result_monad",
    "Rustica.QC.c82_test_semigroup",
    "Rustica.QC.c82_test_validated"
   ],
   "note": "Every function of tests/ that is handed to QuickCheck is a definition of Verif/Tests/QuickCheck.lean over the model of the code under test, with bounded integers and overflow as a panic; one theorem per test file says that it passes on every input, or discards it under exactly the stated condition. TestBifunctor: on every value that its generator and shrinker can make (c82_test_bifunctor_generator); without that limit two tests panic. The integer shrinker of the crate enters as a hypothesis. c82_arithmetic states the machine arithmetic the tests use."
  },
  {
   "property": "C83",
   "status": "partial",
   "theorems": [
    "Rustica.QC.c83_async_full_false",
    "Rustica.QC.c83_async_partial",
    "Rustica.QC.c83_choice_full",
    "Rustica.QC.c83_cont_full_false",
    "Rustica.QC.c83_cont_partial",
    "Rustica.QC.c83_either_full",
    "Rustica.QC.c83_id_full",
    "Rustica.QC.c83_io_blind_spot",
    "Rustica.QC.c83_io_full_false",
    "Rustica.QC.c83_io_partial",
    "Rustica.QC.c83_maybe_full",
    "Rustica.QC.c83_maybe_shrink",
    "Rustica.QC.c83_maybe_shrink_ends",
    "Rustica.QC.c83_reader_full_false",
    "Rustica.QC.c83_reader_partial",
    "Rustica.QC.c83_state_full_false",
    "Rustica.QC.c83_state_partial",
    "Rustica.QC.c83_validated_blind_spot",
    "Rustica.QC.c83_validated_full_false",
    "Rustica.QC.c83_validated_partial",
    "Rustica.QC.c83_writer_full"
   ],
   "note": "True for Id, Maybe, Either, Writer and Choice; false for Validated, Reader, State, Cont, IO and AsyncM: for each of them a value that cannot be made and the exact set of values that can. Probabilities and sizes are not modelled, the random source is a parameter."
  },
  {
   "property": "C84",
   "status": "partial",
   "theorems": [
    "Rustica.Serde.c84_all_types_iff",
    "Rustica.Serde.c84_choice",
    "Rustica.Serde.c84_duplicate_field",
    "Rustica.Serde.c84_either",
    "Rustica.Serde.c84_elements_read",
    "Rustica.Serde.c84_first_last_false",
    "Rustica.Serde.c84_first_partial",
    "Rustica.Serde.c84_id",
    "Rustica.Serde.c84_injective",
    "Rustica.Serde.c84_last_partial",
    "Rustica.Serde.c84_maybe",
    "Rustica.Serde.c84_maybe_in_maybe",
    "Rustica.Serde.c84_missing_field",
    "Rustica.Serde.c84_newtypes",
    "Rustica.Serde.c84_reads_all",
    "Rustica.Serde.c84_struct1_reads",
    "Rustica.Serde.c84_validated",
    "Rustica.Serde.c84_variants_read",
    "Rustica.Serde.c84_writer",
    "Rustica.Serde.c84_writer_field_order",
    "Rustica.Serde.c84_written"
   ],
   "note": "True of ten of the twelve types; First and Last lose the difference between no value and a content that is written as null. c84_all_types_iff is the exact condition for every type built from the derived types, Option, Vec and some basic types. What the derive macros generate and the JSON format are modelled as documented (external code); floats, integer bounds and the nesting limit of serde_json are outside."
  },
  {
   "property": "C85",
   "status": "partial",
   "theorems": [
    "Rustica.PVec.Node.c85_size",
    "Rustica.PVec.PV.c85_concat_iff",
    "Rustica.PVec.PV.c85_push_back_iff",
    "Rustica.PVec.PV.c85_push_front_iff",
    "Rustica.PVec.c85_overflow",
    "Rustica.PVec.c85_program_partial",
    "Rustica.PVec.c85_wrapped"
   ],
   "note": "The property is false: c85_overflow gives a program of fewer than 1000 calls and less than 2^20 words of memory that overflows 64-bit lengths; c85_wrapped says what a build without overflow checks then does. Proved instead: no overflow as long as (elements supplied) * 2^(calls of concat) fits (c85_program_partial), and for each call on an intact vector exactly when it overflows (c85_push_back_iff, c85_push_front_iff, c85_concat_iff)."
  },
  {
   "property": "C86",
   "status": "partial",
   "theorems": [
    "Rustica.PVec.PV.c86_collected",
    "Rustica.PVec.PV.c86_dictionary_partial",
    "Rustica.PVec.PV.c86_same_layout",
    "Rustica.PVec.PV.c86_vector_false",
    "Rustica.PVec.PV.c86_vector_partial_cmp",
    "Rustica.PVec.PV.c86_vector_total",
    "Rustica.c86_choice_dictionary",
    "Rustica.c86_choice_total",
    "Rustica.c86_contents",
    "Rustica.c86_either_result_false",
    "Rustica.c86_either_result_iff",
    "Rustica.c86_either_total",
    "Rustica.c86_incomparable",
    "Rustica.c86_maybe_option_false",
    "Rustica.c86_maybe_option_iff",
    "Rustica.c86_maybe_result",
    "Rustica.c86_maybe_total",
    "Rustica.c86_option_maybe_iff",
    "Rustica.c86_partial_cmp",
    "Rustica.c86_result_validated",
    "Rustica.c86_validated_result_iff",
    "Rustica.c86_validated_total",
    "Rustica.c86_variants",
    "Rustica.c86_wrappers_total",
    "Rustica.c86_writer_log_first",
    "Rustica.c86_writer_total"
   ],
   "note": "The property is false of vectors (c86_vector_false), of Maybe::to_option (c86_maybe_option_false) and of Either::to_result (c86_either_result_false). Proved for all: the orders are total and agree with == (c86_*_total), partial_cmp agrees with cmp (c86_partial_cmp, c86_vector_partial_cmp), choices and error lists are in dictionary order. Instead of the false parts: vectors with the same layout and no front buffer are in dictionary order (c86_dictionary_partial), the exact order of all vectors with one layout (c86_same_layout) and of collected vectors (c86_collected), and exactly which pairs a conversion keeps in order (c86_maybe_option_iff, c86_option_maybe_iff, c86_either_result_iff, c86_validated_result_iff)."
  },
  {
   "property": "C87",
   "status": "partial",
   "theorems": [
    "Rustica.Alloc.c87_all_or_nothing",
    "Rustica.Alloc.c87_bind_capacity",
    "Rustica.Alloc.c87_choice_capacity",
    "Rustica.Alloc.c87_choice_new",
    "Rustica.Alloc.c87_choice_new_inline",
    "Rustica.Alloc.c87_choice_new_spills",
    "Rustica.Alloc.c87_choice_of_many",
    "Rustica.Alloc.c87_filter_map",
    "Rustica.Alloc.c87_filter_map_collect",
    "Rustica.Alloc.c87_invalid_many_counterexample",
    "Rustica.Alloc.c87_invalid_many_partial",
    "Rustica.Alloc.c87_invalid_vec",
    "Rustica.Alloc.c87_lift2_capacity",
    "Rustica.Alloc.c87_lift3_capacity",
    "Rustica.Alloc.c87_room_needed",
    "Rustica.Alloc.c87_vec_lift3_counterexample",
    "Rustica.Alloc.c87_vec_lift_capacity"
   ],
   "note": "False for invalid_many, which reserves the upper bound of the hint (c87_invalid_many_counterexample: for every limit an iterator of three items on which it fails); c87_invalid_many_partial is the exact condition. Proved in full for the other constructors. Element types of size zero are not covered. c87_all_or_nothing needs no hypothesis: with any hint and any limit, a constructor that returns has taken all the items. Vec::lift2 and lift3 reserve a product: c87_vec_lift_capacity says when it overflows, c87_vec_lift3_counterexample that it can overflow for an empty result (with overflow checks). c87_room_needed: for an iterator that knows its length, exactly how much room each constructor needs."
  },
  {
   "property": "C88",
   "status": "partial",
   "theorems": [
    "Rustica.Numbers.c88_builds_agree",
    "Rustica.Numbers.c88_combine_all_product",
    "Rustica.Numbers.c88_combine_all_sum",
    "Rustica.Numbers.c88_combine_n_product",
    "Rustica.Numbers.c88_combine_n_sum",
    "Rustica.Numbers.c88_combine_n_zero",
    "Rustica.Numbers.c88_identity",
    "Rustica.Numbers.c88_power_product",
    "Rustica.Numbers.c88_product_exact",
    "Rustica.Numbers.c88_product_false",
    "Rustica.Numbers.c88_product_iff",
    "Rustica.Numbers.c88_product_panic_iff",
    "Rustica.Numbers.c88_product_partial",
    "Rustica.Numbers.c88_product_sign_false",
    "Rustica.Numbers.c88_product_wrapped",
    "Rustica.Numbers.c88_release_laws",
    "Rustica.Numbers.c88_repeat_sum",
    "Rustica.Numbers.c88_sum_exact",
    "Rustica.Numbers.c88_sum_false",
    "Rustica.Numbers.c88_sum_iff",
    "Rustica.Numbers.c88_sum_panic_iff",
    "Rustica.Numbers.c88_sum_partial",
    "Rustica.Numbers.c88_sum_wrapped",
    "Rustica.Numbers.c88_unsigned_sum"
   ],
   "note": "False as stated: with overflow checks a signed Sum is not associative ((MAX + 1) + (-1) panics, MAX + (1 + (-1)) does not; c88_sum_false, exact condition for three values c88_sum_iff), and no integer Product is ((MAX * 2) * 0; c88_product_false, c88_product_sign_false). Proved: a returned result is always the exact one (c88_sum_exact, c88_product_exact); order does not matter, panics included, for values of one sign, so for all unsigned sums (c88_sum_partial, c88_unsigned_sum), and for products of values of at least 1 (c88_product_partial); identities, folds and powers; everything holds with wrapping. For every order of combining, c88_sum_panic_iff and c88_product_panic_iff say exactly when it panics: when the exact result inside some pair of brackets does not fit."
  },
  {
   "property": "C89",
   "status": "partial",
   "theorems": [
    "Rustica.PVec.Heap.c89_concat_cells",
    "Rustica.PVec.Heap.c89_extend_cells",
    "Rustica.PVec.Heap.c89_from_iter_cells",
    "Rustica.PVec.Heap.c89_from_iter_partial",
    "Rustica.PVec.Heap.c89_insert_cells",
    "Rustica.PVec.Heap.c89_log_false",
    "Rustica.PVec.Heap.c89_no_bound",
    "Rustica.PVec.Heap.c89_persistent",
    "Rustica.PVec.Heap.c89_pop_cells",
    "Rustica.PVec.Heap.c89_push_back_cells",
    "Rustica.PVec.Heap.c89_push_front_cells",
    "Rustica.PVec.Heap.c89_remove_cells",
    "Rustica.PVec.Heap.c89_shared",
    "Rustica.PVec.Heap.c89_split_cells",
    "Rustica.PVec.Heap.c89_update_cells",
    "Rustica.PVec.Heap.c89_values"
   ],
   "note": "Reading, persistence, sharing and the bounds by depth are proved for all programs. The logarithmic bound is false of the code (c89_log_false: an update can take linearly many nodes in a vector built by push_back); c89_update_cells is exact, and c89_from_iter_partial gives the logarithmic bound for vectors made by from_iter. c89_insert_cells and c89_remove_cells bound insert and remove by the levels of the tree. c89_no_bound: after take an update can take any number of nodes whatever the length."
  },
  {
   "property": "C90",
   "status": "partial",
   "theorems": [
    "Rustica.Choice.c90_dedup",
    "Rustica.Choice.c90_dedup_by_key",
    "Rustica.Choice.c90_dedup_kept",
    "Rustica.Entries.c90_map_assoc",
    "Rustica.Entries.c90_map_combine",
    "Rustica.Entries.c90_map_owned",
    "Rustica.Entries.c90_to_map",
    "Rustica.PVec.PV.c90_dedup_adjacent",
    "Rustica.PVec.PV.c90_dedup_runs",
    "Rustica.PVec.PV.c90_dedup_unique",
    "Rustica.PVec.PV.c90_vec_agree",
    "Rustica.PVec.PV.c90_vec_collected",
    "Rustica.PVec.PV.c90_vec_eq_contents",
    "Rustica.PVec.PV.c90_vec_laws",
    "Rustica.PVec.PV.c90_vec_self",
    "Rustica.c90_agree",
    "Rustica.c90_contains",
    "Rustica.c90_extreme_assoc",
    "Rustica.c90_extreme_empty",
    "Rustica.c90_extreme_fold",
    "Rustica.c90_extreme_pick",
    "Rustica.c90_flatten_sorted_stable",
    "Rustica.c90_lens_exact_iff",
    "Rustica.c90_lens_false",
    "Rustica.c90_lens_law_iff",
    "Rustica.c90_lens_set",
    "Rustica.c90_lens_up_to",
    "Rustica.c90_prism",
    "Rustica.c90_prism_exact_iff",
    "Rustica.c90_set_combine",
    "Rustica.c90_verify_laws"
   ],
   "note": "Partial because false of the code for lenses: set does not store a value that is == but not identical (c90_lens_false), so the lens laws need == to be identity (c90_lens_exact_iff); they hold up to == for Eq types (c90_lens_up_to), and what set does for any == is c90_lens_set. Everything else in the statement is proved for all comparisons meeting the contracts. That the definitions agree with those of the other files when == is identity is c90_agree and c90_vec_agree."
  },
  {
   "property": "C91",
   "status": "partial",
   "theorems": [
    "Rustica.c91_agree",
    "Rustica.c91_clear",
    "Rustica.c91_commute",
    "Rustica.c91_commute_false",
    "Rustica.c91_consistent",
    "Rustica.c91_consistent_call",
    "Rustica.c91_hit",
    "Rustica.c91_idempotent",
    "Rustica.c91_poison",
    "Rustica.c91_recursion",
    "Rustica.c91_reenter",
    "Rustica.c91_released",
    "Rustica.c91_returns_iff",
    "Rustica.c91_stored",
    "Rustica.c91_transparent"
   ],
   "note": "False in two points, both proved: a closure that calls the memoizer it is computing for never returns, even for a cached key (c91_reenter, c91_recursion; c91_returns_iff says exactly when a first call returns), and a closure that panics poisons the memoizer, so calls for different keys do not commute then (c91_commute_false, c91_poison).  Everything else of the statement is proved for all programs."
  },
  {
   "property": "C92",
   "status": "partial",
   "theorems": [
    "Rustica.Clones.c92_borrowed_applicative",
    "Rustica.Clones.c92_borrowed_functor",
    "Rustica.Clones.c92_borrowed_monad",
    "Rustica.Clones.c92_choice_bind",
    "Rustica.Clones.c92_choice_bind_counts",
    "Rustica.Clones.c92_choice_bind_owned",
    "Rustica.Clones.c92_choice_into",
    "Rustica.Clones.c92_choice_owned",
    "Rustica.Clones.c92_choice_owned_counts",
    "Rustica.Clones.c92_choice_owned_false",
    "Rustica.Clones.c92_clone_counts",
    "Rustica.Clones.c92_combine",
    "Rustica.Clones.c92_combine_all",
    "Rustica.Clones.c92_combine_inner",
    "Rustica.Clones.c92_combine_n",
    "Rustica.Clones.c92_combine_writer",
    "Rustica.Clones.c92_map_borrowed",
    "Rustica.Clones.c92_map_owned",
    "Rustica.Clones.c92_monad_error",
    "Rustica.Clones.c92_owned_applicative",
    "Rustica.Clones.c92_owned_functor",
    "Rustica.Clones.c92_owned_monad",
    "Rustica.Clones.c92_plain",
    "Rustica.Clones.c92_plus",
    "Rustica.Clones.c92_pure",
    "Rustica.Clones.c92_pure_owned_clones",
    "Rustica.Clones.c92_pure_owned_false",
    "Rustica.Clones.c92_replace_owned",
    "Rustica.Clones.c92_result_fmap_owned",
    "Rustica.Clones.c92_result_fmap_owned_false",
    "Rustica.Clones.c92_sequence",
    "Rustica.Clones.c92_sequence_owned",
    "Rustica.Clones.c92_sum",
    "Rustica.Clones.c92_validated_borrowed",
    "Rustica.Clones.c92_validated_owned",
    "Rustica.Clones.c92_vec_owned",
    "Rustica.Clones.c92_vec_owned_false",
    "Rustica.Clones.c92_void_owned",
    "Rustica.Clones.c92_wrapper_functor",
    "Rustica.Clones.c92_writer_borrowed",
    "Rustica.Clones.c92_writer_lift3",
    "Rustica.Clones.c92_writer_owned"
   ],
   "note": "False for: pure_owned of Maybe, Either and Id (the default body clones), replace_owned (its body is replace), Result::fmap_owned (clones the error), the owned applicative methods of Vec and Choice, Choice::bind_owned/join_owned/sequence/Vec::from, Choice::bind and join (they clone answers they own), Writer::lift3 (clones the first two logs twice), combine_owned of maps (clones the old value of a common key), combine of maps (clones a value it then drops), combine_n_owned, Validated::to_result (clones the errors it drops). For each the exact clones are proved; everything else in the statement is proved for every Clone implementation, and with an effect-free clone the cloning methods equal the methods of C69 that do not clone. Not modelled here: the closures-as-values containers (Reader, State, Cont, IO, Lens); PersistentVector is C93."
  },
  {
   "property": "C93",
   "status": "proved",
   "theorems": [
    "Rustica.PVec.Cloned.c93_bounded",
    "Rustica.PVec.Cloned.c93_buffers",
    "Rustica.PVec.Cloned.c93_from_iter",
    "Rustica.PVec.Cloned.c93_from_iter_count",
    "Rustica.PVec.Cloned.c93_insert_clones_value",
    "Rustica.PVec.Cloned.c93_only_held",
    "Rustica.PVec.Cloned.c93_reached",
    "Rustica.PVec.Cloned.c93_rebuilt",
    "Rustica.PVec.Cloned.c93_returns",
    "Rustica.PVec.Cloned.c93_returns_rebuilt"
   ],
   "note": "The pvec functions once more with a log of the elements on which T::clone is called (PVec/Cloned). c93_returns and c93_returns_rebuilt tie each logged call to the call of PVec/Core. c93_bounded gives the bounds for every vector made by any program of calls (Reach), c93_reached vectors on which those of update, push_back, push_front, pop_front and split_at are met (concat: 1344 of 1408 met). c93_from_iter and c93_rebuilt give the exact log of collecting, from_slice, to_vec, filter, dedup, sorted and partition. A clone equals its original; calls that panic are not described. c93_buffers gives the exact log of the calls that stay in a buffer or inline. c93_only_held: what is cloned was held by the vector; the value pushed or written never is, and c93_insert_clones_value shows insert can clone the value given."
  },
  {
   "property": "C94",
   "status": "partial",
   "theorems": [
    "Rustica.Depth.c94_async_exact",
    "Rustica.Depth.c94_async_false",
    "Rustica.Depth.c94_compose_false",
    "Rustica.Depth.c94_cont_bind_exact",
    "Rustica.Depth.c94_cont_exact",
    "Rustica.Depth.c94_cont_false",
    "Rustica.Depth.c94_containers",
    "Rustica.Depth.c94_io_false",
    "Rustica.Depth.c94_io_partial",
    "Rustica.Depth.c94_pipeline",
    "Rustica.Depth.c94_predicate_false",
    "Rustica.Depth.c94_readerT_false",
    "Rustica.Depth.c94_reader_false",
    "Rustica.Depth.c94_reader_step",
    "Rustica.Depth.c94_sequence",
    "Rustica.Depth.c94_stateT_false",
    "Rustica.Depth.c94_state_exact",
    "Rustica.Depth.c94_state_false",
    "Rustica.Depth.c94_state_step",
    "Rustica.Depth.c94_steps",
    "Rustica.Depth.c94_values",
    "Rustica.Depth.c94_values_async",
    "Rustica.Depth.c94_values_cont",
    "Rustica.Depth.c94_values_rest",
    "Rustica.Depth.c94_values_transformers",
    "Rustica.Depth.c94_writer"
   ],
   "note": "False for the types that store closures: every fmap, bind, local, union, negate or compose adds a frame (c94_state_false, c94_stateT_false, c94_readerT_false, c94_reader_false, c94_cont_false, c94_io_false, c94_async_false, c94_predicate_false, c94_compose_false, for every start and all functions; exact counts in c94_state_exact, c94_cont_exact, per step in c94_state_step, c94_reader_step). True for the types that are data: Writer, ErrorPipeline, Maybe, Validated, Choice, for IO from pure values and IO::sequence, FunctionCategory::sequence and compose_all. c94_values, c94_values_cont, c94_values_rest, c94_values_async, c94_values_transformers tie the model to the models without depth. Only calls through pointers to closures and polls of boxed futures are counted."
  },
  {
   "property": "C95",
   "status": "partial",
   "theorems": [
    "Rustica.Clones.c95_extrema",
    "Rustica.Clones.c95_find",
    "Rustica.Clones.c95_fold_map",
    "Rustica.Clones.c95_fold_map_false",
    "Rustica.Clones.c95_fold_map_vec",
    "Rustica.Clones.c95_fold_monoid",
    "Rustica.Clones.c95_folds_cloning",
    "Rustica.Clones.c95_folds_sparing",
    "Rustica.Clones.c95_is_sorted",
    "Rustica.Clones.c95_no_clones",
    "Rustica.Clones.c95_plain",
    "Rustica.Clones.c95_pvec_fold_right",
    "Rustica.Clones.c95_pvec_fold_right_any",
    "Rustica.Clones.c95_reduce",
    "Rustica.Clones.c95_reduce_count",
    "Rustica.Clones.c95_sum",
    "Rustica.Clones.c95_to_vec",
    "Rustica.Clones.c95_to_vec_false"
   ],
   "note": "False for to_vec, which clones the accumulator at every element: exactly n(n+1)/2 clones (c95_to_vec), more than any linear bound (c95_to_vec_false); and for fold_map into Vec, whose combine clones what was collected so far: exact count c95_fold_map_vec, quadratic with one value per element (c95_fold_map_false). All the rest holds with exact counts: c95_no_clones and c95_reduce for every Clone, with effects and panics; c95_find (the hit once, and again for every element after it), c95_is_sorted, c95_extrema (one per element), c95_sum (2n+1, or 1 or 2 for Option, Result, Validated and Id), c95_fold_monoid and c95_fold_map. The folds themselves clone the starting value (c95_folds_cloning: Vec, Choice, PersistentVector) or only if there is no element (c95_folds_sparing: Option, Result, Validated, Id); fold_right of PersistentVector for intact vectors (c95_pvec_fold_right). c95_plain ties the cloning model to the others. Comparisons, sums and conversions are functions without effects; length of PersistentVector is overridden and is C12."
  },
  {
   "property": "C96",
   "status": "partial",
   "theorems": [
    "Rustica.PVec.Frames.c96_calls_partial",
    "Rustica.PVec.Frames.c96_from_iter_exact",
    "Rustica.PVec.Frames.c96_log_false",
    "Rustica.PVec.Frames.c96_push_back_exact",
    "Rustica.PVec.Frames.c96_returns",
    "Rustica.PVec.PV.c96_joined_partial",
    "Rustica.PVec.PV.c96_no_bound"
   ],
   "note": "False of the code: vectors made by push_back have one level per 1984 elements, and dropping them, update, pop_front and every 64th push_back nest that deep (c96_push_back_exact, c96_log_false). Proved instead: a bound for every vector from the calls that made it (c96_calls_partial), the exact nesting of collecting a vector (c96_from_iter_exact), and that the counted functions return what the model returns (c96_returns). What a call drops on the way is not counted. c96_no_bound: dropping a vector of any given length can nest any number of calls. Dropping a vector from which nothing was taken away nests fewer than 2*len calls (c96_joined_partial)."
  },
  {
   "property": "C97",
   "status": "partial",
   "theorems": [
    "Rustica.PVec.PV.c97_back_stack",
    "Rustica.PVec.PV.c97_collected_exact",
    "Rustica.PVec.PV.c97_collected_iff",
    "Rustica.PVec.PV.c97_collected_queue_partial",
    "Rustica.PVec.PV.c97_drain_exact",
    "Rustica.PVec.PV.c97_drain_iff",
    "Rustica.PVec.PV.c97_emptied_queue_loses",
    "Rustica.PVec.PV.c97_front_stack",
    "Rustica.PVec.PV.c97_long_queue_false",
    "Rustica.PVec.PV.c97_long_queue_partial",
    "Rustica.PVec.PV.c97_queue_false",
    "Rustica.PVec.PV.c97_reverse_queue_exact",
    "Rustica.PVec.PV.c97_reverse_queue_false",
    "Rustica.PVec.PV.c97_small_partial"
   ],
   "note": "False of the code for queues of more than 64 elements (c97_queue_false, c97_reverse_queue_false). Exactly: a queue filled and then drained gives back what is behind the first element of the tail in reverse (c97_drain_exact), so it is right exactly under c97_drain_iff; filled at the front, it gives nothing back at the back (c97_reverse_queue_exact). An emptied queue that is no longer inline loses 64 of the next 65 elements, proved for every such vector (c97_emptied_queue_loses). Proved in full for stacks at the front (c97_front_stack) and at the back (c97_back_stack); for every mix of the four calls that never holds more than 64 elements (c97_small_partial); and for queues that, once past 64 elements, always keep more than 64 (c97_long_queue_partial, a bound that cannot be lowered: c97_long_queue_false). The same for a vector made by from_iter and then used as a queue (c97_collected_exact, c97_collected_iff, c97_collected_queue_partial)."
  },
  {
   "property": "C98",
   "status": "partial",
   "theorems": [
    "Rustica.PVec.PV.c98_calls_partial",
    "Rustica.PVec.PV.c98_each",
    "Rustica.PVec.PV.c98_each_le",
    "Rustica.PVec.PV.c98_from_iter_partial",
    "Rustica.PVec.PV.c98_joined_partial",
    "Rustica.PVec.PV.c98_nlogn_false",
    "Rustica.PVec.PV.c98_no_bound",
    "Rustica.PVec.PV.c98_push_back_exact",
    "Rustica.PVec.PV.c98_push_back_quadratic",
    "Rustica.PVec.PV.c98_push_back_visits"
   ],
   "note": "False of the code: the iterator calls get for every position and keeps nothing in between (c98_each), and a vector made by push_back is one level deep per 1984 elements, so going through it takes at least (n-64)^2/3968 node visits (c98_push_back_quadratic) and no n*log n bound holds (c98_nlogn_false). Proved: the exact count for every position and in total after pushes (c98_push_back_visits, c98_push_back_exact), a bound for every history of calls (c98_calls_partial) and n*(k+1) for vectors made in one go of at most 64*32^k elements (c98_from_iter_partial). c98_no_bound: after take no bound in terms of the length holds at all. Vectors from which nothing was taken away: at most 2*len^2 (c98_joined_partial)."
  },
  {
   "property": "C99",
   "status": "partial",
   "theorems": [
    "Rustica.PVec.PV.c99_calls_partial",
    "Rustica.PVec.PV.c99_concat_exact",
    "Rustica.PVec.PV.c99_from_iter_partial",
    "Rustica.PVec.PV.c99_log_false",
    "Rustica.PVec.PV.c99_no_bound",
    "Rustica.PVec.PV.c99_push_back_exact",
    "Rustica.PVec.PV.c99_width"
   ],
   "note": "False of the code, also where the tree is flat: joining k+1 vectors of 128 elements makes a root of k+2 children, which is searched from the front, so the last element takes k+2 entries although no lookup reads more than three nodes (c99_concat_exact, c99_log_false). Proved: at most w entries per branch passed where branches have at most w children (c99_width), a bound for every history of calls (c99_calls_partial), 32*k for vectors made in one go of at most 64*32^k elements (c99_from_iter_partial), and the exact number for every position after pushes (c99_push_back_exact). c99_no_bound: after take no bound in terms of the length holds at all."
  },
  {
   "property": "C100",
   "status": "partial",
   "theorems": [
    "Rustica.PVec.PV.c100_calls_partial",
    "Rustica.PVec.PV.c100_grown_partial",
    "Rustica.PVec.PV.c100_joined_no_bound",
    "Rustica.PVec.PV.c100_joined_partial",
    "Rustica.PVec.PV.c100_joined_square",
    "Rustica.PVec.PV.c100_no_bound",
    "Rustica.PVec.PV.c100_take_exact"
   ],
   "note": "False of the code: take (split_at, skip) keeps every level of the tree above the elements it keeps, so for every length there are vectors holding any number of nodes (c100_no_bound, c100_take_exact). False, too, of vectors from which nothing was ever taken: joining with single elements makes the nodes grow with the square of the length (c100_joined_no_bound, c100_joined_square), and no faster (c100_joined_partial: at most 3 len^2). Proved: without concat and without a call that takes elements away at most one node per 32 elements (c100_grown_partial), and what each single call adds (c100_calls_partial). Nodes shared by two parents are counted twice."
  },
  {
   "property": "C101",
   "status": "partial",
   "theorems": [
    "Rustica.c101_building",
    "Rustica.c101_eager",
    "Rustica.c101_ends",
    "Rustica.c101_joined",
    "Rustica.c101_prefix",
    "Rustica.c101_recover",
    "Rustica.c101_sequential",
    "Rustica.c101_unawaited_partial",
    "Rustica.c101_validated"
   ],
   "note": "False as stated: zip_with and apply of two pure values run the function while they build (c101_eager), so a computation that is never awaited can have effects; c101_unawaited_partial and c101_building give the exact condition. The rest holds at every point of dropping: c101_ends, c101_sequential (fmap, bind, owned), c101_joined (zip_with, apply, apply_owned, parts without shared data, every schedule), c101_recover, c101_prefix (parts that share their world). Futures that never finish are not modelled. The asynchronous maps of Validated: c101_validated."
  },
  {
   "property": "C102",
   "status": "partial",
   "theorems": [
    "Rustica.PVec.Frames.c102_calls_partial",
    "Rustica.PVec.Frames.c102_composed_exact",
    "Rustica.PVec.Frames.c102_concat_exact",
    "Rustica.PVec.Frames.c102_concat_false",
    "Rustica.PVec.Frames.c102_ends_partial",
    "Rustica.PVec.Frames.c102_extend_false",
    "Rustica.PVec.Frames.c102_extend_partial",
    "Rustica.PVec.Frames.c102_extend_square",
    "Rustica.PVec.Frames.c102_from_iter_partial",
    "Rustica.PVec.Frames.c102_joined_partial",
    "Rustica.PVec.Frames.c102_log_false",
    "Rustica.PVec.Frames.c102_no_bound",
    "Rustica.PVec.Frames.c102_pop_back_exact",
    "Rustica.PVec.Frames.c102_pop_front_exact",
    "Rustica.PVec.Frames.c102_push_back_exact",
    "Rustica.PVec.Frames.c102_push_exact",
    "Rustica.PVec.Frames.c102_split_exact",
    "Rustica.PVec.Frames.c102_split_false",
    "Rustica.PVec.Frames.c102_update_exact"
   ],
   "note": "False of the code: every 64th push_back walks all levels, which grow linearly with the length (c102_push_back_exact, c102_log_false), so n pushes make a number of calls of the order n^2 (c102_extend_square, c102_extend_false); concat of flat vectors asks all children of the root for their sizes (c102_concat_exact, c102_concat_false); after take no bound by the length holds (c102_no_bound). Proved for every history: at most four calls per level paid for (c102_ends_partial) and, for splits and joins, 32 per level and vector joined in (c102_calls_partial); two per leaf for from_iter (c102_from_iter_partial); update exactly as many as a lookup reads nodes (c102_update_exact); fewer than 8*len for vectors that only grew (c102_joined_partial). The pops make exactly three (front) and four (back) calls for each node a lookup reads, less two, when a leaf does not become empty (c102_pop_front_exact, c102_pop_back_exact). split_at of flat vectors asks all children of the root, too (c102_split_exact, c102_split_false). The pushes exactly, whatever made the vector (c102_push_exact); take, skip, insert and remove make the calls of what they are put together from (c102_composed_exact). extend of any vector goes down the tree at most once for every 64 elements (c102_extend_partial)."
  },
  {
   "property": "C103",
   "status": "partial",
   "theorems": [
    "Rustica.Clones.c103_chain_exact",
    "Rustica.Clones.c103_exact",
    "Rustica.Clones.c103_fmap_exact",
    "Rustica.Clones.c103_halved_exact",
    "Rustica.Clones.c103_join_exact",
    "Rustica.Clones.c103_least",
    "Rustica.Clones.c103_linear_false",
    "Rustica.Clones.c103_owned",
    "Rustica.Clones.c103_sequence_partial"
   ],
   "note": "False of the code for the methods that borrow: an entry is cloned once for each bind, lift2 or combine it is below (c103_exact, for every program), so n entries one after the other make (n-1)(n+2)/2 clones (c103_chain_exact), every program of n writing steps at least n*log2 n (c103_least, met by c103_halved_exact), and no linear bound holds for any way of putting the steps together (c103_linear_false). fmap clones the whole log each time (c103_fmap_exact), join the inner log twice (c103_join_exact). Proved for the methods that take ownership: no clone at all (c103_owned), and for Validated::sequence: each error once (c103_sequence_partial)."
  },
  {
   "property": "C104",
   "status": "partial",
   "theorems": [
    "Rustica.Clones.c104_chain_exact",
    "Rustica.Clones.c104_eval_exact",
    "Rustica.Clones.c104_plain",
    "Rustica.Clones.c104_reader_exact",
    "Rustica.Clones.c104_reader_option_exact",
    "Rustica.Clones.c104_reader_t_exact",
    "Rustica.Clones.c104_reader_t_false",
    "Rustica.Clones.c104_reader_t_iff",
    "Rustica.Clones.c104_reader_t_partial",
    "Rustica.Clones.c104_state_exact",
    "Rustica.Clones.c104_with_exact"
   ],
   "note": "Proved exactly for every program of Reader (c104_reader_exact, c104_chain_exact) and State (c104_state_exact, c104_eval_exact), and the values agree with the model without clones (c104_plain). False for ReaderT: over Id one bind clones the environment three times and one combine twice (c104_reader_t_exact, c104_reader_t_false); it holds exactly for programs that run neither (c104_reader_t_iff), and the bound is three clones each (c104_reader_t_partial). Over Option and for the _with methods the exact counts are c104_reader_option_exact and c104_with_exact. The states made by From<StateT> are not covered."
  },
  {
   "property": "C105",
   "status": "partial",
   "theorems": [
    "Rustica.Clones.c105_effects_partial",
    "Rustica.Clones.c105_exact",
    "Rustica.Clones.c105_false",
    "Rustica.Clones.c105_iff",
    "Rustica.Clones.c105_map_exact",
    "Rustica.Clones.c105_plain",
    "Rustica.Clones.c105_sequence_exact"
   ],
   "note": "False of the code: IO::pure(v).run() clones v though it is run once (c105_false). Exact counts for every program and number of runs (c105_exact, c105_map_exact, c105_sequence_exact); it holds if and only if no pure is among the parts that run (c105_iff), and then for any number of runs (c105_effects_partial). With a clone without effects the methods are those of the IO model (c105_plain). new_async, delay_sync and recover_with, which clone a stored value when they run, are not counted."
  },
  {
   "property": "C106",
   "status": "proved",
   "theorems": [
    "Rustica.Asking.c106_distinct",
    "Rustica.Asking.c106_exact",
    "Rustica.Asking.c106_not_asked",
    "Rustica.Asking.c106_once",
    "Rustica.Asking.c106_union_all",
    "Rustica.Asking.c106_union_none"
   ],
   "note": "Exact list of the predicates asked, for every expression and argument (c106_exact); each at most as often as written and in order (c106_once, c106_distinct); a union of a list stops at the first yes (c106_union_all, c106_union_none); parts that are not asked may panic (c106_not_asked). The parts answer without panicking and their answer does not depend on the world; C71 covers any effects for one combinator."
  },
  {
   "property": "C107",
   "status": "partial",
   "theorems": [
    "Rustica.Clones.c107_always_iff",
    "Rustica.Clones.c107_exact",
    "Rustica.Clones.c107_false",
    "Rustica.Clones.c107_nothing_saved",
    "Rustica.Clones.c107_once_partial",
    "Rustica.Clones.c107_plain"
   ],
   "note": "False as documented: fmap_owned and bind_owned clone exactly as often as fmap and bind (c107_nothing_saved, for every program without apply), and apply_owned clones more often than apply when the program is run three times (c107_false). Proved: the exact number of clones when a program is put together and run n times, for both kinds of methods, every tree of methods and every schedule (c107_exact); run once, the owned methods make at most as many clones (c107_once_partial). With a clone without effects the methods run alone are those of Effect/Async (c107_plain; joins left out). Effects in the trees do not fail except where recover_with or from_result_or_default stands directly around them; clones of the closures themselves are not counted. However often the program is run the owned methods clone at most as often if and only if they do so in a single run (c107_always_iff)."
  },
  {
   "property": "C108",
   "status": "proved",
   "theorems": [
    "Rustica.Clones.c108_clones",
    "Rustica.Clones.c108_cont",
    "Rustica.Clones.c108_exact",
    "Rustica.Clones.c108_lift",
    "Rustica.Clones.c108_plain"
   ],
   "note": "For every tree of pure, fmap, bind, apply and call_cc and every continuation: the clones of the values given to pure or escaped with, then one call of the continuation (c108_exact for ContT, c108_cont for Cont, c108_clones); lift (c108_lift). The closures in the tree have no effects and do not panic; in a call_cc the body is one part, then either the escape or a second part. With a clone without effects the methods are those of Trans/ContT (c108_plain)."
  },
  {
   "property": "C109",
   "status": "proved",
   "theorems": [
    "Rustica.Clones.c109_chain",
    "Rustica.Clones.c109_exact",
    "Rustica.Clones.c109_lifted",
    "Rustica.Clones.c109_plain",
    "Rustica.Clones.c109_variants"
   ],
   "note": "For every tree of the methods and every state (c109_exact); chains of modify clone nothing (c109_chain); LiftM (c109_lifted); the model without clones gives the same values (c109_plain). The base monad is Option, with its own map, and_then and zip as the functions given by the user; the closures in the tree have no effects; apply is modelled for two effects only, and the variants Pure and LiftM are not mixed into the trees; clones of closures are not counted. What the methods cost on the variants Pure and LiftM by themselves: c109_variants."
  }
 ]
}
