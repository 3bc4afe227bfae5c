{
 "claims": [
  {
   "property": "C01",
   "status": "proved",
   "theorems": [
    "Zy.C01_vector_behaves_like_list",
    "Zy.C01_init",
    "Zy.C01_init_buffer"
   ],
   "note": "Every history of the eleven modelled operations on every vector obtainable by init/init-buffer/duplicate is defined and equals the list specification (statuses, elements, size, capacity). Domain: allocator calls succeed, n*255*element_size < 2^64, a constructor callback in the middle does not fail (that case is C15_negation)."
  },
  {
   "property": "C02",
   "status": "proved",
   "theorems": [
    "Zy.C02_memory_safe",
    "Zy.C02_reads_safe"
   ],
   "note": "Out-of-block accesses are a distinct outcome (ub oob) of the model; histories, destruction and searches never have it, in the no-overflow domain."
  },
  {
   "property": "C03",
   "status": "proved",
   "theorems": [
    "Zy.C03_fixed_never_allocates",
    "Zy.C03_fixed_overflow_refused",
    "Zy.C03_fixed_within_capacity_succeeds"
   ],
   "note": ""
  },
  {
   "property": "C04",
   "status": "partial",
   "theorems": [
    "Zy.C04_refused_growth_partial",
    "Zy.C04_refused_resize_partial",
    "Zy.C04_negation",
    "Zy.C04_negation_all"
   ],
   "note": "False for the code: ZyanVectorReallocate stores the new capacity before asking the allocator (witness C04_negation: the next push writes out of bounds). Proved: status, size, elements, live block unchanged, and ShrinkToFit repairs the vector. C04_negation_all: fails so for every full dynamic vector."
  },
  {
   "property": "C05",
   "status": "proved",
   "theorems": [
    "Zy.C05_destroyed_exactly_once",
    "Zy.C05_from_init",
    "Zy.C05_no_destructor"
   ],
   "note": "Multiset equality of destroyed elements with stored elements, for all histories."
  },
  {
   "property": "C06",
   "status": "proved",
   "theorems": [
    "Zy.C06_storage_accounting",
    "Zy.C06_refused_negation"
   ],
   "note": "The allocator trace of every history of granted calls replays to exactly one live block with the right count; destruction returns it. Beyond the quantifier of the property: after a refused request the count passed on destruction is wrong (C06_refused_negation)."
  },
  {
   "property": "C07",
   "status": "partial",
   "theorems": [
    "Zy.C07_get",
    "Zy.C07_out_of_range_rejected",
    "Zy.C07_set_in_range",
    "Zy.C07_delete_partial",
    "Zy.C07_negation",
    "Zy.C07_negation_all",
    "Zy.C07_delete_wrapped_rejected"
   ],
   "note": "False for deletion: index + count wraps (witness C07_negation, delete at 2^64-1). Everything else is proved; deletion is proved without wrap-around. Swapping on a full vector is C12. C07_negation_all: fails for every deletion whose end wraps into the vector; C07_delete_wrapped_rejected: the other wrapping deletions are rejected."
  },
  {
   "property": "C08",
   "status": "proved",
   "theorems": [
    "Zy.C08_find_first",
    "Zy.C08_find_out_of_range",
    "Zy.C08_find_whole"
   ],
   "note": "Note that searching an empty vector returns OUT_OF_RANGE."
  },
  {
   "property": "C09",
   "status": "proved",
   "theorems": [
    "Zy.C09_binary_search_lower_bound",
    "Zy.C09_binary_search_whole"
   ],
   "note": ""
  },
  {
   "property": "C10",
   "status": "proved",
   "theorems": [
    "Zy.C10_binary_search_logarithmic"
   ],
   "note": ""
  },
  {
   "property": "C11",
   "status": "proved",
   "theorems": [
    "Zy.C11_insert_delete_roundtrip"
   ],
   "note": "In the no-overflow domain; for a fixed buffer the range has to fit."
  },
  {
   "property": "C12",
   "status": "proved",
   "theorems": [
    "Zy.C12_swap",
    "Zy.C12_swap_full"
   ],
   "note": "memcpy of a slot onto itself (equal indices) is treated as a no-op."
  },
  {
   "property": "C13",
   "status": "proved",
   "theorems": [
    "Zy.C13_duplicate",
    "Zy.C13_duplicate_own_block",
    "Zy.C13_duplicate_buffer"
   ],
   "note": "Independence is expressed by distinct block identities; in the model each vector value owns its block."
  },
  {
   "property": "C14",
   "status": "partial",
   "theorems": [
    "Zy.C14_resize_partial",
    "Zy.C14_negation",
    "Zy.C14_negation_all"
   ],
   "note": "False for sizes whose product with the growth factor wraps (witness C14_negation: resize to 2^63 succeeds with a one-slot block). Proved for n*255*element_size < 2^64. C14_negation_all: fails for every growing resize whose wrapped byte size is too small."
  },
  {
   "property": "C15",
   "status": "partial",
   "theorems": [
    "Zy.C15_emplace_success",
    "Zy.C15_emplace_failure_partial",
    "Zy.C15_negation",
    "Zy.C15_negation_all"
   ],
   "note": "False for a failing constructor inside of the vector (witness C15_negation: an element is lost). Proved for success at any index and for failure at the end. C15_negation_all: fails for every constructor failing inside of the vector."
  },
  {
   "property": "C16",
   "status": "proved",
   "theorems": [
    "Zy.C16_push_reallocations"
   ],
   "note": ""
  },
  {
   "property": "C17",
   "status": "proved",
   "theorems": [
    "Zy.C17_shrink"
   ],
   "note": ""
  },
  {
   "property": "C18",
   "status": "partial",
   "theorems": [
    "Zy.C18_terminated_partial",
    "Zy.C18_negation",
    "Zy.C18_negation_all"
   ],
   "note": "False for requests that wrap around (witness C18_negation: resize to 2^64-1 and delete at 2^64-1 write outside of the storage). Proved for every history in the no-overflow domain, whether the calls succeed or fail. C18_negation_all: for every string."
  },
  {
   "property": "C19",
   "status": "proved",
   "theorems": [
    "Zy.C19_string_behaves_like_text"
   ],
   "note": "Thirteen kinds of calls, every reachable string, in the no-overflow domain with an allocator that does not fail."
  },
  {
   "property": "C20",
   "status": "partial",
   "theorems": [
    "Zy.C20_fixed_within_buffer_partial",
    "Zy.C20_fixed_overflow_refused",
    "Zy.C20_negation",
    "Zy.C20_negation_all"
   ],
   "note": "False for wrapping requests (witness C20_negation). Proved for every history in the no-overflow domain. C20_negation_all: for every fixed string."
  },
  {
   "property": "C21",
   "status": "proved",
   "theorems": [
    "Zy.C21_left_search",
    "Zy.C21_left_search_whole",
    "Zy.C21_out_of_range",
    "Zy.string_view_shows"
   ],
   "note": "For terminated views (every string view is one, string_view_shows); views into a larger buffer are C31."
  },
  {
   "property": "C22",
   "status": "proved",
   "theorems": [
    "Zy.C22_right_search",
    "Zy.C22_right_search_whole",
    "Zy.C22_out_of_range"
   ],
   "note": "For all views."
  },
  {
   "property": "C23",
   "status": "partial",
   "theorems": [
    "Zy.C23_search_ignoring_case_partial",
    "Zy.C23_negation",
    "Zy.C23_search_exact",
    "Zy.C23_negation_all"
   ],
   "note": "False for non-letters: the code compares c ^ 32, so '@' matches '`' (witness C23_negation). Proved when the texts contain no such pair. C23_search_exact: for all texts the search is the one up to bit 5; C23_negation_all: fails for every pair of texts where the needle occurs up to bit 5 but not up to letter case."
  },
  {
   "property": "C24",
   "status": "proved",
   "theorems": [
    "Zy.C24_compare_equal"
   ],
   "note": ""
  },
  {
   "property": "C25",
   "status": "partial",
   "theorems": [
    "Zy.C25_compare_order_partial",
    "Zy.C25_negation",
    "Zy.C25_negation_all",
    "Zy.C25_length_first"
   ],
   "note": "False: a length difference is decided before the characters, and the sign convention is not antisymmetric (witness C25_negation). Proved for the cases stated in the partial theorem. C25_negation_all / C25_length_first: for all texts of the offending kinds."
  },
  {
   "property": "C26",
   "status": "partial",
   "theorems": [
    "Zy.C26_compare_ignoring_case_partial",
    "Zy.C26_negation",
    "Zy.C26_compare_exact",
    "Zy.C26_negation_all"
   ],
   "note": "False for non-letters (witness C26_negation: '@' equals '`'). Proved when the texts contain no such pair. C26_compare_exact / C26_negation_all: exact behaviour for all texts."
  },
  {
   "property": "C27",
   "status": "proved",
   "theorems": [
    "Zy.C27_lower_case",
    "Zy.C27_upper_case",
    "Zy.C27_outside_unchanged",
    "Zy.C27_whole"
   ],
   "note": ""
  },
  {
   "property": "C28",
   "status": "partial",
   "theorems": [
    "Zy.C28_view_of_range_partial",
    "Zy.C28_negation",
    "Zy.C28_range_refused",
    "Zy.C28_whole_views",
    "Zy.C28_refusals"
   ],
   "note": "False for ZyanStringViewInsideViewEx: the size is always one too small (C28_negation holds for every range). Characters, refusal, and the other three view constructors are proved."
  },
  {
   "property": "C29",
   "status": "proved",
   "theorems": [
    "Zy.C29_duplicate",
    "Zy.C29_concat",
    "Zy.C29_duplicate_buffer",
    "Zy.C29_concat_buffer"
   ],
   "note": ""
  },
  {
   "property": "C30",
   "status": "partial",
   "theorems": [
    "Zy.C30_truncate_partial",
    "Zy.C30_negation",
    "Zy.C30_negation_all"
   ],
   "note": "False at the length itself: INVALID_ARGUMENT (witness C30_negation). Proved for every other index. C30_negation_all: at the length of every string."
  },
  {
   "property": "C31",
   "status": "partial",
   "theorems": [
    "Zy.C31_reads_inside_partial",
    "Zy.C31_search_inside_partial",
    "Zy.C31_negation",
    "Zy.C31_compare_negation_all",
    "Zy.C31_left_search_negation_all"
   ],
   "note": "False for the left search and for comparing equal texts, which read the byte behind the view (witness C31_negation). Proved for append, insert, right search and comparison of different texts. C31_*_negation_all: fails for every equal pair with different following bytes and for every needle followed by a foreign character."
  },
  {
   "property": "C32",
   "status": "proved",
   "theorems": [
    "Zy.C32_decimal",
    "Zy.C32_decimal_32",
    "Zy.C32_numeral_roundtrip"
   ],
   "note": ""
  },
  {
   "property": "C33",
   "status": "proved",
   "theorems": [
    "Zy.C33_hexadecimal",
    "Zy.C33_hexadecimal_32",
    "Zy.C32_numeral_roundtrip"
   ],
   "note": ""
  },
  {
   "property": "C34",
   "status": "proved",
   "theorems": [
    "Zy.C34_signed_decimal",
    "Zy.C34_signed_hexadecimal"
   ],
   "note": ""
  },
  {
   "property": "C35",
   "status": "partial",
   "theorems": [
    "Zy.C35_unsigned_full",
    "Zy.C35_signed_full_partial",
    "Zy.C35_negation",
    "Zy.C35_signed_exact",
    "Zy.C35_negation_all"
   ],
   "note": "False for signed numbers: the sign stays appended (witness C35_negation). Proved for unsigned numbers; for signed numbers the string stays terminated and inside the buffer and gains a prefix of the output. C35_signed_exact gives the exact outcome (which pieces stay); C35_negation_all: fails whenever the sign fits and the number does not."
  },
  {
   "property": "C36",
   "status": "partial",
   "theorems": [
    "Zy.C36_format_partial",
    "Zy.C36_negation_growth",
    "Zy.C36_negation_failure",
    "Zy.C36_negation_arguments",
    "Zy.C36_format_exact",
    "Zy.C36_room_for_two",
    "Zy.C36_negation_all",
    "Zy.C36_failure_exact"
   ],
   "note": "False for growth factor 1, for the terminator after a failure and because the va_list is used twice (witnesses). Proved for texts that fit, for growth factors >= 2 with a repeatable formatter, and for characters and length after failures. vsnprintf is a parameter: a formatter result per call. C36_format_exact and C36_failure_exact give the exact outcome for all remaining capacities; C36_room_for_two is the strongest positive statement; C36_negation_all covers all offending inputs."
  },
  {
   "property": "C37",
   "status": "proved",
   "theorems": [
    "Zy.C37_abs_exact"
   ],
   "note": ""
  },
  {
   "property": "C76",
   "status": "partial",
   "theorems": [
    "Zy.C76_append_self_partial",
    "Zy.C76_negation",
    "Zy.C76_negation_all",
    "Zy.C76_same_partial",
    "Zy.C76_same_negation"
   ],
   "note": "The first three theorems are about a view object of its own that shows the string. False when the append reallocates: use after free (witness C76_negation). Proved when the storage suffices. C76_negation_all: use after free for every string for which the append reallocates. C76_same_*: if the string itself is passed as the view (ZYAN_STRING_TO_VIEW is a cast), its size is read after the resize and twice the text is copied onto a part of itself, which is undefined for every non-empty string that is not refused."
  },
  {
   "property": "C77",
   "status": "partial",
   "theorems": [
    "Zy.C77_reserve_partial",
    "Zy.C77_negation",
    "Zy.C77_negation_all"
   ],
   "note": "False by one: reserve counts the terminator, the reported capacity does not (witness C77_negation). Proved: capacity at least n-1. C77_negation_all: off by one for every reservation that reserves."
  },
  {
   "property": "C78",
   "status": "partial",
   "theorems": [
    "Zy.C78_index_checks_partial",
    "Zy.C78_negation",
    "Zy.C78_left_search_negation_all",
    "Zy.C78_view_case_negation_all",
    "Zy.C78_delete_negation_all",
    "Zy.C78_source_negation_all"
   ],
   "note": "False for ranges whose end wraps (witness C78_negation). Proved for GetChar, GetCharMutable and SetChar over all machine words; Truncate is C30, RPosEx is C22_out_of_range, case conversion is C27_outside_unchanged. C78_*_negation_all: what happens for every range whose end wraps into the text."
  },
  {
   "property": "C38",
   "status": "partial",
   "theorems": [
    "Zy.C38_sequence_of_booleans_partial"
   ],
   "note": "Every history of the twelve operations equals the list-of-booleans specification, with tests of every index. Excluded: pop on the empty bitset (C45_negation) and a push refused by a full buffer (C79_negation), where the code does not behave like a sequence; allocator calls succeed, sizes fit the machine word, initial size divisible by eight (C44_negation)."
  },
  {
   "property": "C39",
   "status": "proved",
   "theorems": [
    "Zy.C39_one_bit"
   ],
   "note": ""
  },
  {
   "property": "C40",
   "status": "proved",
   "theorems": [
    "Zy.C40_and_or_xor",
    "Zy.C40_flip",
    "Zy.C40_self"
   ],
   "note": ""
  },
  {
   "property": "C41",
   "status": "proved",
   "theorems": [
    "Zy.C41_set_reset_all"
   ],
   "note": ""
  },
  {
   "property": "C42",
   "status": "partial",
   "theorems": [
    "Zy.C42_count_partial",
    "Zy.C42_count_histories",
    "Zy.C42_negation",
    "Zy.C42_exact_iff"
   ],
   "note": "False after popping a set bit (witness C42_negation). Proved: the exact result for every bitset; equality with the number of set bits when no stray bit is set, in particular for sizes divisible by eight and for histories without pop/set-all/flip. C42_exact_iff: it is exact if and only if no stray bit is set or all valid bits are set."
  },
  {
   "property": "C43",
   "status": "partial",
   "theorems": [
    "Zy.C43_exact_partial",
    "Zy.C43_clean_partial",
    "Zy.C43_multiple_of_eight",
    "Zy.C43_all_always_false",
    "Zy.C43_negation"
   ],
   "note": "False: the mask for the last byte is ~(8 - size % 8). Exact for sizes 7 mod 8 and 0; any/none exact for clean bitsets with size % 8 <> 0; for sizes divisible by eight the fourth bit from the end is ignored; all is constantly FALSE for clean sizes 1..6 mod 8."
  },
  {
   "property": "C44",
   "status": "partial",
   "theorems": [
    "Zy.C44_init_partial",
    "Zy.C44_init_buffer_partial",
    "Zy.C44_negation",
    "Zy.C44_usable_exact"
   ],
   "note": "False for every size not divisible by eight and every size from 2^35 on (C44_negation is proved for all of them). Proved for all other sizes, dynamic and on caller buffers."
  },
  {
   "property": "C45",
   "status": "partial",
   "theorems": [
    "Zy.C45_pop_partial",
    "Zy.C45_negation"
   ],
   "note": "False for every empty bitset: pop succeeds and the size becomes 2^64-1 (C45_negation). Proved: pop on non-empty bitsets removes the last bit."
  },
  {
   "property": "C79",
   "status": "partial",
   "theorems": [
    "Zy.C79_push_partial",
    "Zy.C79_negation",
    "Zy.C79_forever_negation",
    "Zy.C79_pop_negation"
   ],
   "note": "False for every full bitset on a caller buffer: the size is increased before the failure (C79_negation), all later pushes fail, and removing the bit that was refused loses the last eight bits. Proved: a push with room appends."
  },
  {
   "property": "C80",
   "status": "proved",
   "theorems": [
    "Zy.C80_memory_safe"
   ],
   "note": "For all histories, including those that violate C42-C45 and C79; allocator calls succeed, byte counts fit the machine word."
  },
  {
   "property": "C81",
   "status": "partial",
   "theorems": [
    "Zy.C81_reserve_partial",
    "Zy.C81_negation",
    "Zy.C81_reserve_exact",
    "Zy.C81_huge_negation"
   ],
   "note": "False for every n not divisible by eight: the number of bytes is rounded down (C81_negation), and for every n from 2^35 on, where it is computed modulo 2^32 (C81_huge_negation). The capacity after every request is in C81_reserve_exact. Proved for multiples of eight below 2^35."
  },
  {
   "property": "C82",
   "status": "proved",
   "theorems": [
    "Zy.C82_msb_lsb"
   ],
   "note": ""
  },
  {
   "property": "C83",
   "status": "proved",
   "theorems": [
    "Zy.C83_size_bytes"
   ],
   "note": ""
  },
  {
   "property": "C84",
   "status": "proved",
   "theorems": [
    "Zy.C84_string_storage",
    "Zy.C84_bitset_storage"
   ],
   "note": "Same domain as C19 and C38."
  },
  {
   "property": "C46",
   "status": "proved",
   "theorems": [
    "Zy.C46_list_is_a_deque",
    "Zy.C46_short_histories_fit"
   ],
   "note": "Every history of the eleven operations on dynamic lists (with arbitrary refusals of allocations) and lists on caller buffers; the number of elements stays below 2^64 and a dynamic list's allocator takes memory back (C86 is about one that does not)."
  },
  {
   "property": "C47",
   "status": "proved",
   "theorems": [
    "Zy.C47_links_consistent"
   ],
   "note": "Same domain as C46."
  },
  {
   "property": "C48",
   "status": "proved",
   "theorems": [
    "Zy.C48_whole_buffer_usable",
    "Zy.C48_short_buffer_negation"
   ],
   "note": "Alignment of the nodes is C85."
  },
  {
   "property": "C49",
   "status": "proved",
   "theorems": [
    "Zy.C49_released_exactly_once"
   ],
   "note": ""
  },
  {
   "property": "C50",
   "status": "proved",
   "theorems": [
    "Zy.C50_refusal_changes_nothing"
   ],
   "note": ""
  },
  {
   "property": "C51",
   "status": "partial",
   "theorems": [
    "Zy.C51_remove_negation"
   ],
   "note": "False for every list and every node: ZyanListRemove and ZyanListRemoveRange are stubs that report success (C51_remove_negation)."
  },
  {
   "property": "C85",
   "status": "partial",
   "theorems": [
    "Zy.C85_aligned_nodes_partial",
    "Zy.C85_aligned_nodes_negation"
   ],
   "note": "False for every element size that is not a multiple of 8 and every buffer with room for two nodes. Proved for multiples of 8."
  },
  {
   "property": "C86",
   "status": "partial",
   "theorems": [
    "Zy.C86_refused_free_pop_partial",
    "Zy.C86_refused_free_shrink_negation",
    "Zy.C86_refused_free_clear_negation"
   ],
   "note": "False for every shrinking resize (the size is stale) and for clear and destroy once a node has been freed (the head dangles). Proved for both pops."
  },
  {
   "property": "C87",
   "status": "partial",
   "theorems": [
    "Zy.C87_emplace_partial",
    "Zy.C87_failing_constructor_negation"
   ],
   "note": "False for every failing constructor: its status is ignored. Proved: the list gets the constructed element."
  },
  {
   "property": "C52",
   "status": "partial",
   "theorems": [
    "Zy.C52_grammar_with_quirk",
    "Zy.C52_documented_grammar_partial",
    "Zy.C52_documented_grammar_fails"
   ],
   "note": "False for clusters of flags, which are also reported as unnamed arguments (C52_documented_grammar_fails). Proved: the exact behaviour for every proper configuration and every allocator behaviour, and the documented grammar for command lines without flag clusters."
  },
  {
   "property": "C53",
   "status": "proved",
   "theorems": [
    "Zy.C53_limits_respected"
   ],
   "note": "For every allocator behaviour."
  },
  {
   "property": "C54",
   "status": "proved",
   "theorems": [
    "Zy.C54_options_and_values",
    "Zy.C54_value_iff_declared"
   ],
   "note": "For every allocator behaviour."
  },
  {
   "property": "C55",
   "status": "proved",
   "theorems": [
    "Zy.C55_after_double_dash"
   ],
   "note": ""
  },
  {
   "property": "C56",
   "status": "partial",
   "theorems": [
    "Zy.C56_failed_parse_owns_nothing_partial",
    "Zy.C56_first_request_refused",
    "Zy.C56_refusal_leaks"
   ],
   "note": "False whenever a request other than the first is refused: the storage leaks (C56_refusal_leaks, for all such executions). Proved for executions without refusals and for a refused first request."
  },
  {
   "property": "C57",
   "status": "partial",
   "theorems": [
    "Zy.C57_flag_cluster_partial",
    "Zy.C57_flag_cluster_is_also_unnamed",
    "Zy.C57_flag_cluster_rejected"
   ],
   "note": "False for every flag cluster in every successful parse (C57_flag_cluster_is_also_unnamed); with no unnamed arguments allowed the cluster is rejected. Proved: the flags are reported one per character, in order."
  },
  {
   "property": "C88",
   "status": "proved",
   "theorems": [
    "Zy.C88_parse_of_rendered"
   ],
   "note": "Short flags are excluded because of C57."
  },
  {
   "property": "C89",
   "status": "proved",
   "theorems": [
    "Zy.C89_error_token"
   ],
   "note": ""
  },
  {
   "property": "C58",
   "status": "proved",
   "theorems": [
    "Zy.C58_memmove"
   ],
   "note": ""
  },
  {
   "property": "C59",
   "status": "proved",
   "theorems": [
    "Zy.C59_memcpy",
    "Zy.C59_memset",
    "Zy.C59_memcmp",
    "Zy.C59_memchr"
   ],
   "note": ""
  },
  {
   "property": "C60",
   "status": "proved",
   "theorems": [
    "Zy.C60_strlen",
    "Zy.C60_strcpy",
    "Zy.C60_strcat",
    "Zy.C60_strncpy",
    "Zy.C60_strncat"
   ],
   "note": ""
  },
  {
   "property": "C61",
   "status": "partial",
   "theorems": [
    "Zy.C61_strcmp",
    "Zy.C61_strncmp_partial",
    "Zy.C61_strncmp_reads_on",
    "Zy.C61_strncmp_negation"
   ],
   "note": "strcmp proved. False for strncmp on every pair of equal strings with n at least two above their length: it reads behind the terminators. Proved for all other cases."
  },
  {
   "property": "C62",
   "status": "proved",
   "theorems": [
    "Zy.C62_strchr",
    "Zy.C62_strrchr",
    "Zy.C62_strspn",
    "Zy.C62_strcspn",
    "Zy.C62_strpbrk"
   ],
   "note": ""
  },
  {
   "property": "C63",
   "status": "partial",
   "theorems": [
    "Zy.C63_strstr_partial",
    "Zy.C63_empty_in_empty"
   ],
   "note": "False only for two empty strings (null instead of the start). Proved for all other pairs."
  },
  {
   "property": "C64",
   "status": "proved",
   "theorems": [
    "Zy.C64_strtok"
   ],
   "note": ""
  },
  {
   "property": "C90",
   "status": "partial",
   "theorems": [
    "Zy.C90_transformation_partial",
    "Zy.C90_collation_negation"
   ],
   "note": "False for every pair of different strings: strcoll is a stub. Proved: strxfrm copies, returns the length and stays within the buffer."
  },
  {
   "property": "C65",
   "status": "proved",
   "theorems": [
    "Zy.C65_fields",
    "Zy.C65_masked",
    "Zy.C65_round_trip",
    "Zy.C65_complementary",
    "Zy.C65_predefined"
   ],
   "note": ""
  },
  {
   "property": "C66",
   "status": "proved",
   "theorems": [
    "Zy.C66_align_up",
    "Zy.C66_align_up_wraps",
    "Zy.C66_is_aligned"
   ],
   "note": "Both operands of one unsigned type (any width); see C93 for a narrower alignment."
  },
  {
   "property": "C67",
   "status": "partial",
   "theorems": [
    "Zy.C67_align_down_partial",
    "Zy.C67_align_down_negation"
   ],
   "note": "False for every multiple of the alignment, which is lowered by the alignment. Proved for all other values."
  },
  {
   "property": "C68",
   "status": "proved",
   "theorems": [
    "Zy.C68_power_of_two"
   ],
   "note": ""
  },
  {
   "property": "C69",
   "status": "partial",
   "theorems": [
    "Zy.C69_bits_partial",
    "Zy.C69_needs_bit",
    "Zy.C69_bits_negation",
    "Zy.C69_bits_negation_32"
   ],
   "note": "False for every value of more than 32 bits. Proved for all others."
  },
  {
   "property": "C70",
   "status": "proved",
   "theorems": [
    "Zy.C70_numeric",
    "Zy.C70_signed",
    "Zy.C70_field",
    "Zy.C70_agree",
    "Zy.C70_valid_for_search"
   ],
   "note": ""
  },
  {
   "property": "C91",
   "status": "partial",
   "theorems": [
    "Zy.C91_min_max",
    "Zy.C91_abs_partial",
    "Zy.C91_abs_negation"
   ],
   "note": "False for the absolute value of the least value of a signed type (overflow). Proved for everything else."
  },
  {
   "property": "C92",
   "status": "proved",
   "theorems": [
    "Zy.C92_version",
    "Zy.C92_reported_version"
   ],
   "note": ""
  },
  {
   "property": "C93",
   "status": "partial",
   "theorems": [
    "Zy.C93_narrow_alignment_partial",
    "Zy.C93_narrow_alignment_negation"
   ],
   "note": "False for every value of more than 32 bits: the high half of the result is zero. Proved if the next multiple fits in 32 bits."
  },
  {
   "property": "C71",
   "status": "partial",
   "theorems": [
    "Zy.C71_allocate_partial",
    "Zy.C71_reallocate_partial",
    "Zy.C71_deallocate",
    "Zy.C71_allocate_negation",
    "Zy.C71_reallocate_negation",
    "Zy.C71_reallocate_dangling",
    "Zy.C71_history"
   ],
   "note": "False for every product of 2^64 or more (block too small; for multiples of 2^64 a reallocation may even leave a dangling pointer). Proved for all other products, and for whole client programs with any behaviour of the C library."
  },
  {
   "property": "C94",
   "status": "proved",
   "theorems": [
    "Zy.C94_vector",
    "Zy.C94_vector_buffer",
    "Zy.C94_string",
    "Zy.C94_bitset",
    "Zy.C94_list",
    "Zy.C94_allocator"
   ],
   "note": ""
  },
  {
   "property": "C95",
   "status": "partial",
   "theorems": [
    "Zy.C95_vector_partial",
    "Zy.C95_vector_negation",
    "Zy.C95_string_partial",
    "Zy.C95_string_negation"
   ],
   "note": "False for every vector with element size times capacity of 2^64 or more (filling it writes behind the block), and for a string of capacity 2^64-1. Proved for everything else."
  },
  {
   "property": "C72",
   "status": "proved",
   "theorems": [
    "Zy.C72_no_lost_update",
    "Zy.C72_increments",
    "Zy.C72_distinct"
   ],
   "note": "The distinctness holds as long as there are not more increments than values of the cell."
  },
  {
   "property": "C73",
   "status": "proved",
   "theorems": [
    "Zy.C73_one_winner"
   ],
   "note": ""
  },
  {
   "property": "C96",
   "status": "proved",
   "theorems": [
    "Zy.C96_linearizable"
   ],
   "note": "Assumes that the compiler intrinsics are atomic and sequentially consistent."
  },
  {
   "property": "C74",
   "status": "proved",
   "theorems": [
    "Zy.C74_exclusion",
    "Zy.C74_enter",
    "Zy.C74_tryEnter",
    "Zy.C74_leave",
    "Zy.C74_initialize"
   ],
   "note": "POSIX branch. Assumes that pthread mutexes behave as POSIX says; the number of recursive locks may be limited by the system, an enter or try-enter beyond the limit is refused."
  },
  {
   "property": "C75",
   "status": "proved",
   "theorems": [
    "Zy.C75_get",
    "Zy.C75_private"
   ],
   "note": "POSIX branch, for indices in use (POSIX leaves others undefined). Assumes that pthread keys behave as POSIX says."
  },
  {
   "property": "C97",
   "status": "proved",
   "theorems": [
    "Zy.C97_protect",
    "Zy.C97_protect_frame",
    "Zy.C97_free",
    "Zy.C97_free_succeeds"
   ],
   "note": "POSIX branch. Assumes that mprotect and munmap behave as POSIX says."
  },
  {
   "property": "C98",
   "status": "partial",
   "theorems": [
    "Zy.C98_page_size_partial",
    "Zy.C98_page_size_negation"
   ],
   "note": "False for every failure of sysconf (-1 is reported as 4294967295) and for values of 2^32 or more. Proved for all others."
  },
  {
   "property": "C99",
   "status": "proved",
   "theorems": [
    "Zy.C99_isTTY",
    "Zy.C99_enableVT100"
   ],
   "note": "POSIX branch. Other stream values reach ZYAN_UNREACHABLE in the terminal check."
  },
  {
   "property": "C100",
   "status": "proved",
   "theorems": [
    "Zy.C100_errors",
    "Zy.C100_tls_alloc",
    "Zy.C100_tls_set",
    "Zy.C100_tls_free",
    "Zy.C100_flush"
   ],
   "note": "POSIX branch. Getting a thread-local value has no error report."
  },
  {
   "property": "C101",
   "status": "proved",
   "theorems": [
    "Zy.C101_status_table",
    "Zy.C101_distinct"
   ],
   "note": "POSIX branch."
  },
  {
   "property": "C102",
   "status": "partial",
   "theorems": [
    "Zy.C102_ids_partial",
    "Zy.C102_ids_negation"
   ],
   "note": "ZyanThreadGetCurrentThreadId reads the memory behind the handle, so the id is whatever the first word of the thread block is. Proved for systems whose thread blocks begin with a pointer to themselves (glibc on x86-64)."
  },
  {
   "property": "C103",
   "status": "proved",
   "theorems": [
    "Zy.C103_destructors",
    "Zy.C103_free_calls_nothing"
   ],
   "note": "POSIX branch. Assumes that pthread keys behave as POSIX says; one round of destructors (destructors that store new values are not modelled)."
  },
  {
   "property": "C104",
   "status": "proved",
   "theorems": [
    "Zy.C104_critical_sections"
   ],
   "note": "Assumes that the Windows critical sections and the pthread mutexes behave as documented, and fewer attempts than the recursion limit of POSIX. A leave by a thread that is not inside is refused on POSIX and undefined on Windows."
  },
  {
   "property": "C105",
   "status": "proved",
   "theorems": [
    "Zy.C105_thread_local",
    "Zy.C105_unallocated",
    "Zy.C105_refused"
   ],
   "note": "Assumes that the functions of both systems behave as documented."
  },
  {
   "property": "C106",
   "status": "partial",
   "theorems": [
    "Zy.C106_free_partial",
    "Zy.C106_free_negation",
    "Zy.C106_free_larger_negation"
   ],
   "note": "False for every size that does not reach the last page of the region (the whole region is released) and for every size that reaches into another region (it stays mapped): the size is ignored. Proved for the size of the region, and the conditions of success for all sizes."
  },
  {
   "property": "C107",
   "status": "proved",
   "theorems": [
    "Zy.C107_enableVT100"
   ],
   "note": "Windows branch."
  },
  {
   "property": "C108",
   "status": "partial",
   "theorems": [
    "Zy.C108_foreach_partial",
    "Zy.C108_foreach_defined_partial",
    "Zy.C108_foreach_push",
    "Zy.C108_foreach_negation"
   ],
   "note": "False for bodies that shorten the vector: a body that removes the last element dereferences a null pointer for every vector of two or more elements. Proved for all bodies that do not shorten it."
  },
  {
   "property": "C109",
   "status": "partial",
   "theorems": [
    "Zy.C109_mutable_partial",
    "Zy.C109_mutable_negation"
   ],
   "note": "False for bodies that append before they write: for every full dynamic vector the pointer dangles. Proved for replacement in place."
  },
  {
   "property": "C110",
   "status": "partial",
   "theorems": [
    "Zy.C110_string",
    "Zy.C110_string_indeterminate",
    "Zy.C110_view_partial",
    "Zy.C110_view_negation",
    "Zy.C110_literal"
   ],
   "note": "False for every view whose text goes on behind the view, and for texts with a NUL byte inside. Strings: exact condition for all determinate texts; undefined for characters that were never written."
  },
  {
   "property": "C111",
   "status": "proved",
   "theorems": [
    "Zy.C111_string_duplicate",
    "Zy.C111_string_concat",
    "Zy.C111_vector_duplicate"
   ],
   "note": "Reliable allocator, sizes that fit."
  },
  {
   "property": "C112",
   "status": "proved",
   "theorems": [
    "Zy.C112_same",
    "Zy.C112_linearizable"
   ],
   "note": "Assumes that the interlocked intrinsics behave as documented."
  },
  {
   "property": "C113",
   "status": "partial",
   "theorems": [
    "Zy.C113_quotient",
    "Zy.C113_kernel_partial",
    "Zy.C113_kernel_negation"
   ],
   "note": "False in the Linux kernel for every divisor of 2^32 or more (do_div takes 32 bits), up to dividends so small that both quotients are zero. The macro is not used in src."
  },
  {
   "property": "C114",
   "status": "partial",
   "theorems": [
    "Zy.C114_removal_partial",
    "Zy.C114_resize_negation"
   ],
   "note": "False for Resize and Clear: a refused shrinking returns after the elements were destroyed but before they are forgotten, so they are destroyed twice. Holds for DeleteRange, PopBack and ShrinkToFit."
  },
  {
   "property": "C115",
   "status": "partial",
   "theorems": [
    "Zy.C115_unchanged_partial",
    "Zy.C115_delete_negation",
    "Zy.C115_append_negation"
   ],
   "note": "False for the code: a refused Delete or Truncate has removed the characters already, and after a refused growing Append the same Append writes outside of the block. Proved: every other operation reports the status and leaves the text terminated and unchanged, and ShrinkToFit repairs the string."
  },
  {
   "property": "C116",
   "status": "proved",
   "theorems": [
    "Zy.C116_neighbours",
    "Zy.C116_null_node"
   ],
   "note": ""
  },
  {
   "property": "C117",
   "status": "proved",
   "theorems": [
    "Zy.C117_vector",
    "Zy.C117_string",
    "Zy.C117_bitset",
    "Zy.C117_list",
    "Zy.C117_arguments"
   ],
   "note": "Reliable allocator, sizes that fit. The number of bytes of a bitset is rounded down, which is C44."
  },
  {
   "property": "C118",
   "status": "partial",
   "theorems": [
    "Zy.C118_set",
    "Zy.C118_push_partial",
    "Zy.C118_push_negation",
    "Zy.C118_insert_partial",
    "Zy.C118_insert_shifted_negation",
    "Zy.C118_insert_overlap_negation",
    "Zy.C118_insert_grow_negation",
    "Zy.C118_resize_partial",
    "Zy.C118_resize_negation"
   ],
   "note": "False whenever the memory of the vector moves (released memory is read), and for ranges behind the place of insertion (other elements are inserted, or memcpy overlaps). Proved for ZyanVectorSet without restriction, and for the other functions in all remaining cases."
  },
  {
   "property": "C119",
   "status": "partial",
   "theorems": [
    "Zy.C119_initialised",
    "Zy.C119_string",
    "Zy.C119_reused_partial",
    "Zy.C119_first_partial",
    "Zy.C119_local_negation",
    "Zy.C119_zeroed_negation"
   ],
   "note": "False for the code: the four view functions set data and size but not the element size, which ZyanStringGetChar multiplies the index with. A view in an uninitialised variable gives an indeterminate address, a zeroed one (such as the value of a parsed argument) always gives the first character. Proved for literals, strings and re-used views that had an element size of 1."
  },
  {
   "property": "C120",
   "status": "partial",
   "theorems": [
    "Zy.C120_vector_partial",
    "Zy.C120_buffer_partial",
    "Zy.C120_duplicate",
    "Zy.C120_wrap_negation"
   ],
   "note": "False when the new length times the growth factor exceeds the machine word: the assertion in ZyanVectorShiftRight fails. Proved for all other histories, with any behaviour of the allocator."
  },
  {
   "property": "C121",
   "status": "partial",
   "theorems": [
    "Zy.C121_constructors_partial",
    "Zy.C121_any_allocator_partial",
    "Zy.C121_reliable",
    "Zy.C121_format_partial",
    "Zy.C121_format_exact",
    "Zy.C121_format_negation",
    "Zy.C121_capacity_negation",
    "Zy.C121_view_partial",
    "Zy.C121_view_negation",
    "Zy.C121_getChar_negation",
    "Zy.C121_insert_negation"
   ],
   "note": "False in five cases, each proved: ZyanStringAppendFormat when the text does not fit and the grown string has no room for a second copy (always with growth factor 1), capacity 2^64 - 1, the size of an empty view inside of a view, characters of a zeroed view, and insertions after a refused Clear. Proved for everything else."
  },
  {
   "property": "C122",
   "status": "partial",
   "theorems": [
    "Zy.C122_vector",
    "Zy.C122_vector_destroyed",
    "Zy.C122_vector_refused",
    "Zy.C122_string",
    "Zy.C122_string_destroyed",
    "Zy.C122_bitset",
    "Zy.C122_bitset_destroyed",
    "Zy.C122_argparse",
    "Zy.C122_list_partial",
    "Zy.C122_list_buffer",
    "Zy.C122_list_negation"
   ],
   "note": "False for lists with elements of 2^64 - 16 bytes: the size of a node wraps to zero and the allocator is asked for elements of zero bytes. Proved for everything else without restriction on sizes, allocators and histories."
  },
  {
   "property": "C123",
   "status": "partial",
   "theorems": [
    "Zy.C123_unchanged_partial",
    "Zy.C123_push_negation",
    "Zy.C123_pop_negation",
    "Zy.C123_clear_negation"
   ],
   "note": "Proved for Reserve and ShrinkToFit. False for every refused push (the size is increased, the next seven pushes are out of range and the eighth writes out of bounds), for every refused pop (the bit is gone) and every refused clear (the bytes stay and are seen by later queries)."
  },
  {
   "property": "C124",
   "status": "partial",
   "theorems": [
    "Zy.C124_null_vector",
    "Zy.C124_null_string",
    "Zy.C124_null_bitset_partial",
    "Zy.C124_null_list_partial",
    "Zy.C124_null_init",
    "Zy.C124_null_copy",
    "Zy.C124_null_argument_vector_partial",
    "Zy.C124_null_argument_string_partial",
    "Zy.C124_null_argument_view_partial",
    "Zy.C124_null_operand",
    "Zy.C124_null_argument_bitset_partial",
    "Zy.C124_null_argument_list_partial",
    "Zy.C124_null_parsed",
    "Zy.C124_pointers_given",
    "Zy.C124_results_given",
    "Zy.C124_emplaced",
    "Zy.C124_emplace_full",
    "Zy.C124_searches",
    "Zy.C124_pointers",
    "Zy.C124_copy_status",
    "Zy.C124_copy_empty",
    "Zy.C124_init_given",
    "Zy.C124_queries_given",
    "Zy.C124_list_emplaced",
    "Zy.C124_bitset_negation",
    "Zy.C124_list_negation",
    "Zy.C124_getter_negation",
    "Zy.C124_emplace_negation",
    "Zy.C124_search_negation",
    "Zy.C124_compare_negation",
    "Zy.C124_config_negation"
   ],
   "note": "False for the size and capacity getters, ZyanStringGetData, ZyanVectorEmplace(Ex), the vector searches (result and comparison), the comparisons of strings (result), the head, tail and size of lists, ZyanBitsetReserve and ZyanBitsetShrinkToFit (null bitset), ZyanListRemove(Range) (report success) and ZyanArgParseEx (null configuration); each is proved for all offending inputs. Proved for all other pointers of all functions."
  },
  {
   "property": "C125",
   "status": "partial",
   "theorems": [
    "Zy.C125_vector_partial",
    "Zy.C125_resize_negation",
    "Zy.C125_list",
    "Zy.C125_string_partial",
    "Zy.C125_string_negation"
   ],
   "note": "False for ZyanVectorResize(Ex) with a size other than 0 (reports success without storage) and for strings (size 2^64-1; append, insert, clear and resize write through null), proved for all such inputs. Lists: proved. Vectors: proved for all other calls. Strings: proved for the calls that write no terminator."
  },
  {
   "property": "C126",
   "status": "proved",
   "theorems": [
    "Zy.C126_macro",
    "Zy.C126_output",
    "Zy.C126_texts"
   ],
   "note": "The terminal is the interpreter of ECMA-48 control sequences in Spec/Sgr, reduced to colours."
  },
  {
   "property": "C127",
   "status": "partial",
   "theorems": [
    "Zy.C127_vector_partial",
    "Zy.C127_vector_negation",
    "Zy.C127_allocator_negation",
    "Zy.C127_assertion_negation",
    "Zy.C127_bitset_assertion_negation",
    "Zy.C127_string_partial",
    "Zy.C127_bitset_partial",
    "Zy.C127_list_partial",
    "Zy.C127_list_dynamic_negation",
    "Zy.C127_list_fixed_negation"
   ],
   "note": "Destroying a vector sets the data pointer to null but keeps size and capacity; destroying a list changes nothing in the list. False for every vector with a destructor and elements, for allocators that do not ignore null pointers, for every vector in builds with assertions, and for lists with elements that are dynamic (released nodes are used) or have a destructor (called again). Proved for the rest."
  },
  {
   "property": "C128",
   "status": "partial",
   "theorems": [
    "Zy.C128_append_partial",
    "Zy.C128_append_negation",
    "Zy.C128_insert_partial",
    "Zy.C128_insert_shifted_negation",
    "Zy.C128_insert_overlap_negation",
    "Zy.C128_insert_grow_negation",
    "Zy.C128_appendEx_same",
    "Zy.C128_insert_same",
    "Zy.C76_same_negation"
   ],
   "note": "Proved for parts that end before the place of insertion or start there while the storage stays where it is, and for ZyanStringAppendEx with the string itself as the view. False for every dynamic string whose storage moves (use after free), for parts behind the place of insertion (the characters before them are inserted) and for parts that overlap the gap (memcpy onto a part of itself)."
  },
  {
   "property": "C129",
   "status": "proved",
   "theorems": [
    "Zy.C129_bitset_init",
    "Zy.C129_bitset",
    "Zy.C129_bitset_read",
    "Zy.C129_list",
    "Zy.C129_args"
   ],
   "note": "Histories may contain refused requests and any status of the allocator. Bitsets: growth factors up to 255, the range of their type; in place operations on a bitset with itself are not included."
  },
  {
   "property": "C130",
   "status": "proved",
   "theorems": [
    "Zy.C130_call",
    "Zy.C130_alias",
    "Zy.C130_init",
    "Zy.C130_init_buffer",
    "Zy.C130_duplicate",
    "Zy.C130_duplicate_buffer",
    "Zy.C130_destroy",
    "Zy.C130_history",
    "Zy.C130_search"
   ],
   "note": "The functions of src/Vector.c are modelled a second time on memory made of bytes, with byte offsets and byte lengths in machine words. C130_call, C130_alias, C130_init, C130_duplicate, C130_destroy and C130_search relate every function to the model on elements, without assumptions on sizes or allocators where the latter is defined; C130_history adds the list specification of C01. Bytes of elements that were never written are not determined."
  },
  {
   "property": "C131",
   "status": "partial",
   "theorems": [
    "Zy.C131_swap_partial",
    "Zy.C131_swap_defined",
    "Zy.C131_aligned_elements",
    "Zy.C131_self_negation",
    "Zy.C131_bytes_negation"
   ],
   "note": "False by the letter of the standard: for equal positions memcpy gets the same address twice (C131_self_negation), and the three pointers are converted to ZyanU64* although the elements may have a smaller alignment (C131_bytes_negation: every swap in a short vector of bytes). C131_swap_defined gives the exact domain, C131_swap_partial the bytes afterwards. On machines where misaligned pointers and copies onto the same place are harmless, C12 and C130 hold without restriction."
  },
  {
   "property": "C132",
   "status": "proved",
   "theorems": [
    "Zy.C132_decimal",
    "Zy.C132_hexadecimal",
    "Zy.C132_signed"
   ],
   "note": "Both branches of the preprocessor conditions in ZyanStringAppendDecU and ZyanStringAppendHexU are modelled; ZyanUSize has 64 bits in both."
  },
  {
   "property": "C133",
   "status": "partial",
   "theorems": [
    "Zy.C133_search",
    "Zy.C133_case",
    "Zy.C133_compare_signed",
    "Zy.C133_compare_partial",
    "Zy.C133_compare_negation"
   ],
   "note": "Searching, case conversion and the test for equality: proved. False for the order of texts that first differ in characters on different sides of 128 (C133_compare_negation: opposite results for every such pair); proved for texts of characters below 128."
  },
  {
   "property": "C134",
   "status": "proved",
   "theorems": [
    "Zy.C134_rejected",
    "Zy.C134_recognised",
    "Zy.C134_targets"
   ],
   "note": "Hypothesis: nobody defines the macros that the library defines itself."
  },
  {
   "property": "C135",
   "status": "partial",
   "theorems": [
    "Zy.C135_debug",
    "Zy.C135_partial",
    "Zy.C135_negation_msvc",
    "Zy.C135_negation_unknown",
    "Zy.C135_negation_no_libc",
    "Zy.C135_unreachable"
   ],
   "note": "Proved for Clang, GCC and the Intel compiler with the C library outside the Windows kernel. False with the Microsoft and Borland compilers when both or neither of _DEBUG and NDEBUG are given, with unknown compilers without NDEBUG, and in every debug build without the C library."
  },
  {
   "property": "C136",
   "status": "partial",
   "theorems": [
    "Zy.C136_accepted",
    "Zy.C136_partial",
    "Zy.C136_negation"
   ],
   "note": "Proved for every accepted configuration and every function but eight, which are declared and never defined (C136_negation). The text of the files is reduced to conditionals, declarations, definitions and uses by a script, not by hand."
  },
  {
   "property": "C137",
   "status": "partial",
   "theorems": [
    "Zy.C137_accepted",
    "Zy.C137_partial",
    "Zy.C137_negation"
   ],
   "note": "Proved where the header is accepted. False for the Microsoft compiler on architectures other than x86 and x64, which the rest of the library accepts."
  },
  {
   "property": "C138",
   "status": "partial",
   "theorems": [
    "Zy.C138_exact",
    "Zy.C138_partial",
    "Zy.C138_negation"
   ],
   "note": "Sizes: proved in both directions. Signs: the checks also accept the types with all signs exchanged (C138_negation); C138_exact says exactly what they accept."
  },
  {
   "property": "C139",
   "status": "partial",
   "theorems": [
    "Zy.C139_amortised_partial",
    "Zy.C139_amortised_default",
    "Zy.C139_negation_threshold",
    "Zy.C139_negation_growth"
   ],
   "note": "True, with the constants growth^2 and 2*growth, for growth factors of at least 2 together with shrink thresholds that are 0 or larger than the growth factor (the defaults 2 and 4 included). For all other parameters that ZyanVectorInitEx accepts the cost is quadratic (the two negations)."
  },
  {
   "property": "C140",
   "status": "proved",
   "theorems": [
    "Zy.C140_sorted_insertion"
   ],
   "note": "The loop of examples/Vector.c, for arbitrary elements and comparisons; includes the order of equal elements and fixed vectors that fill up."
  },
  {
   "property": "C141",
   "status": "proved",
   "theorems": [
    "Zy.C141_same_until_refusal"
   ],
   "note": "Simulation between an arbitrary allocator and one that grants everything; needs no hypothesis on the vector. What happens after a refusal is C04, C114 and C122."
  },
  {
   "property": "C142",
   "status": "proved",
   "theorems": [
    "Zy.C142_example_program"
   ],
   "note": "The whole program: every sequence of random numbers and of answers of the allocators. The memory that is lost when the program fails is not part of the statement."
  },
  {
   "property": "C143",
   "status": "proved",
   "theorems": [
    "Zy.C143_strings_until_refusal",
    "Zy.C143_text_until_refusal"
   ],
   "note": "Simulation between an arbitrary allocator and one that grants everything; the first theorem needs no hypothesis on the string. Sources that lie in the string itself are C128. What happens after a refusal is C115."
  },
  {
   "property": "C144",
   "status": "proved",
   "theorems": [
    "Zy.C144_bitsets_until_refusal"
   ],
   "note": "Simulation between an arbitrary allocator and one that grants everything; needs no hypothesis on the bitset. What happens after a refusal is C123."
  },
  {
   "property": "C145",
   "status": "proved",
   "theorems": [
    "Zy.C145_together",
    "Zy.C145_all_returned"
   ],
   "note": "Programs of unlimited length with unlimitedly many vectors; the allocators grant every request and never hand out the same block twice. In the model each vector carries the contents of its block, so the separation of the blocks, which is proved, is what makes this faithful."
  },
  {
   "property": "C146",
   "status": "proved",
   "theorems": [
    "Zy.C146_mixed",
    "Zy.C146_all_returned"
   ],
   "note": "Programs of unlimited length with unlimitedly many objects; the allocators grant every request. Strings appended to themselves (C128) and bitsets combined with themselves (C40) are not commands of these programs, nor is number formatting."
  },
  {
   "property": "C147",
   "status": "partial",
   "theorems": [
    "Zy.C147_disjoint_partial",
    "Zy.C147_all_returned",
    "Zy.C147_count_negation"
   ],
   "note": "All of the statement is proved except the number of elements, for which it is false: after a refused growth the vector has the refused capacity, and gives its block back with that number (C147_count_negation, for every refused Reserve). The default allocator ignores the number."
  },
  {
   "property": "C148",
   "status": "proved",
   "theorems": [
    "Zy.C148_turns",
    "Zy.C148_finished",
    "Zy.C148_progress",
    "Zy.C148_counter",
    "Zy.C148_too_deep",
    "Zy.C148_tries_forever",
    "Zy.C148_left_twice"
   ],
   "note": "For the POSIX mutex; the critical section of Windows gives the same results (C104). The steps of a section are arbitrary functions of the data and a variable of the thread; sections of one critical section."
  },
  {
   "property": "C149",
   "status": "proved",
   "theorems": [
    "Zy.C149_replace_all",
    "Zy.C149_unique"
   ],
   "note": "Strings with an allocator that grants requests; the replaced text is determined uniquely (C149_unique)."
  },
  {
   "property": "C150",
   "status": "proved",
   "theorems": [
    "Zy.C150_insert_delete",
    "Zy.C150_append_truncate",
    "Zy.C150_delete_insert"
   ],
   "note": ""
  },
  {
   "property": "C151",
   "status": "proved",
   "theorems": [
    "Zy.C151_texts",
    "Zy.C151_decimal",
    "Zy.C151_hexadecimal",
    "Zy.C151_negative"
   ],
   "note": "Strings with an allocator that grants requests."
  },
  {
   "property": "C152",
   "status": "proved",
   "theorems": [
    "Zy.C152_bit_by_bit",
    "Zy.C152_equivalent"
   ],
   "note": ""
  },
  {
   "property": "C153",
   "status": "partial",
   "theorems": [
    "Zy.C153_counts_partial",
    "Zy.C153_complement_partial",
    "Zy.C153_negation"
   ],
   "note": "Proved for bitsets without set stray bits (complement: sizes that are multiples of eight); false in general, because the count includes stray bits (C42)."
  },
  {
   "property": "C154",
   "status": "proved",
   "theorems": [
    "Zy.C154_dictionary",
    "Zy.C154_canonical"
   ],
   "note": "For allocators that grant requests, and sizes that fit into the machine word."
  },
  {
   "property": "C155",
   "status": "proved",
   "theorems": [
    "Zy.C155_no_use_after",
    "Zy.C155_destroyed_once"
   ],
   "note": "The number of references stays below the range of the variable. Sequentially consistent intrinsics, as in C96."
  },
  {
   "property": "C156",
   "status": "proved",
   "theorems": [
    "Zy.C156_mutual_exclusion",
    "Zy.C156_serial",
    "Zy.C156_no_deadlock"
   ],
   "note": "Sequentially consistent intrinsics, as in C96."
  },
  {
   "property": "C157",
   "status": "proved",
   "theorems": [
    "Zy.C157_serial",
    "Zy.C157_progress"
   ],
   "note": "Sequentially consistent intrinsics, as in C96."
  },
  {
   "property": "C158",
   "status": "proved",
   "theorems": [
    "Zy.C158_concatenation",
    "Zy.C158_exchange",
    "Zy.C158_wider_limits"
   ],
   "note": "The allocator of the combined parse refuses nothing; the separate parses are only required to succeed."
  },
  {
   "property": "C159",
   "status": "partial",
   "theorems": [
    "Zy.C159_amortised_partial",
    "Zy.C159_amortised_default",
    "Zy.C159_negation_threshold",
    "Zy.C159_negation_growth"
   ],
   "note": "False for every shrink threshold from 1 to the growth factor, and for the growth factor 1: emptying a string character by character, or building it, then costs quadratic time. Proved for all other parameters, in particular the defaults."
  },
  {
   "property": "C160",
   "status": "proved",
   "theorems": [
    "Zy.C160_behaves_like_list",
    "Zy.C160_destroy",
    "Zy.C160_delete_storage",
    "Zy.C160_pop_storage",
    "Zy.C160_clear_storage",
    "Zy.C160_destroy_storage",
    "Zy.C160_set_self_negation"
   ],
   "note": "The histories hand over elements from outside of the vector; C160_set_self_negation is the case of an element that is set to itself. Justifies the simplification of Model/Vector that destructors only look at the elements."
  },
  {
   "property": "C161",
   "status": "proved",
   "theorems": [
    "Zy.C161_init_basic",
    "Zy.C161_init_advanced",
    "Zy.C161_init_buffer",
    "Zy.C161_destructor",
    "Zy.C161_growing_and_shrinking",
    "Zy.C161_element_access",
    "Zy.C161_push_pop",
    "Zy.C161_insert",
    "Zy.C161_delete",
    "Zy.C161_find",
    "Zy.C161_binary_search",
    "Zy.C161_emplace",
    "Zy.C161_swap"
   ],
   "note": "All tests of tests/Vector.cpp as programs over the modelled functions. The tests of tests/ArgParse.cpp are evaluated as examples. Sizes are limited by what fits into the address space (255 times the bytes of the elements below 2^64)."
  },
  {
   "property": "C162",
   "status": "proved",
   "theorems": [
    "Zy.C162_shared_lists",
    "Zy.C162_others_unchanged",
    "Zy.C162_nothing_left"
   ],
   "note": "Frame property of the list functions in a shared memory. Lists with allocators; memory is always taken back; the sum of the lengths fits into a size_t."
  },
  {
   "property": "C163",
   "status": "partial",
   "theorems": [
    "Zy.C163_amortised_partial",
    "Zy.C163_negation_threshold",
    "Zy.C163_negation_default",
    "Zy.C163_negation_constant",
    "Zy.C163_negation_growth"
   ],
   "note": "Proved for growth factors of at least 2 and shrink thresholds that are 0 or larger than the growth factor. False for the others: the defaults of ZyanBitsetInit (growth factor 2, shrink threshold 2) are among them, so that a bitset that has just grown is emptied at quadratic cost and no constant bounds the cost."
  },
  {
   "property": "C164",
   "status": "partial",
   "theorems": [
    "Zy.C164_appended",
    "Zy.C164_more_definitions_partial",
    "Zy.C164_order_partial",
    "Zy.C164_first_definition",
    "Zy.C164_negation_duplicate"
   ],
   "note": "Definitions appended behind the others may have any names; for definitions put elsewhere and for another order the names must be different. Equal names are accepted by the parser (the source has a TODO for the check): only the first definition of a name is used, and if a later one is required no command line is accepted."
  },
  {
   "property": "C165",
   "status": "partial",
   "theorems": [
    "Zy.C165_limits",
    "Zy.C165_usable_exact",
    "Zy.C165_partial",
    "Zy.C165_predefined",
    "Zy.C165_accepted",
    "Zy.C165_negation_icc",
    "Zy.C165_negation_pointer",
    "Zy.C165_negation_other"
   ],
   "note": "The limits are exact everywhere. The types are right exactly when the guesses of the header about the target are right; a wrong guess never goes unnoticed, the header does not compile then. That happens for the Intel compiler on every 64-bit target other than Windows, and for GCC-like compilers without __UINTPTR_TYPE__ on 64-bit targets other than x86-64. Other compilers are turned away by an #error."
  },
  {
   "property": "C166",
   "status": "partial",
   "theorems": [
    "Zy.C166_split",
    "Zy.C166_unique",
    "Zy.C166_join",
    "Zy.C166_split_join",
    "Zy.C166_join_split",
    "Zy.C166_negation_views"
   ],
   "note": "Proved for pieces handed on as positions and lengths; the pieces come back from a joined text if the separator is a single character that does not occur in them. False for pieces handed on as views of ranges: appending such a view leaves out the last character of each piece and fails for an empty piece (the size of the view is one too small, C28)."
  },
  {
   "property": "C167",
   "status": "partial",
   "theorems": [
    "Zy.C167_normal_form_partial",
    "Zy.C167_normal_again",
    "Zy.C167_negation_short"
   ],
   "note": "Proved for lists whose flags have long names and definitions not named `--`. False for every list with a flag that has a short name: its cluster is reported as an unnamed argument as well, so the normal form is rejected or gives a longer list (negation proved)."
  },
  {
   "property": "C168",
   "status": "partial",
   "theorems": [
    "Zy.C168_cmake",
    "Zy.C168_meson_partial",
    "Zy.C168_negation_meson",
    "Zy.C168_old_names",
    "Zy.C168_which_compilers",
    "Zy.C168_negation_clang"
   ],
   "note": "Proved for CMake; for Meson for shared libraries, other compilers than MSVC, and users that define the macro themselves. False for the users of a static library built with Meson and MSVC (they declare the functions as imported; a comment in meson.build leaves it to them), and for Clang and the Intel compiler in place of MSVC, where nothing is ever exported."
  },
  {
   "property": "C169",
   "status": "partial",
   "theorems": [
    "Zy.C169_same_library",
    "Zy.C169_same_flags_partial",
    "Zy.C169_negation_soname",
    "Zy.C169_negation_no_libc",
    "Zy.C169_negation_dialect"
   ],
   "note": "Sources, tested macros and thread library proved equal for all options. False for the name of the shared library (1.5 against 1), for builds without the C library (stack protector, linker flags outside Unix, examples and tests), for the dialect (GNU mode against standard mode) and for the version resource of static libraries."
  },
  {
   "property": "C170",
   "status": "proved",
   "theorems": [
    "Zy.C170_no_deadlock",
    "Zy.C170_someone_can_go_on",
    "Zy.C170_opposite_orders"
   ],
   "note": "POSIX branch, mutexes as in C74. The rule about the order is shown to be needed."
  },
  {
   "property": "C171",
   "status": "proved",
   "theorems": [
    "Zy.C171_guarded",
    "Zy.C171_counter",
    "Zy.C171_no_deadlock",
    "Zy.C171_any_depth"
   ],
   "note": "Windows critical sections as in C104 (the counter of a CRITICAL_SECTION is not bounded in the model)."
  },
  {
   "property": "C172",
   "status": "proved",
   "theorems": [
    "Zy.C172_ordered_fair",
    "Zy.C172_ordered_rounds",
    "Zy.C172_guarded_fair",
    "Zy.C172_counter_fair",
    "Zy.C172_windows_fair",
    "Zy.C172_spin_fair",
    "Zy.C172_spin_rounds",
    "Zy.C172_unfair"
   ],
   "note": "Both branches of the critical sections; programs are finite."
  },
  {
   "property": "C173",
   "status": "proved",
   "theorems": [
    "Zy.C173_is_64",
    "Zy.C173_behaves_like_list",
    "Zy.C173_portable",
    "Zy.C173_reachable",
    "Zy.C173_searches",
    "Zy.C173_searches_is_64",
    "Zy.C173_signed",
    "Zy.C173_reserve_wraps",
    "Zy.C173_delete_wraps"
   ],
   "note": "The functions that compute with sizes are modelled again with the number of values of size_t as a parameter; with 2^64 values they are equal to the 64-bit model. Widths in which size_t is narrower than int (integer promotion) are outside of the model. Allocator calls succeed."
  },
  {
   "property": "C174",
   "status": "proved",
   "theorems": [
    "Zy.C174_is_64",
    "Zy.C174_behaves_like_text",
    "Zy.C174_portable",
    "Zy.C174_reachable",
    "Zy.C174_searches",
    "Zy.C174_searches_is_64",
    "Zy.C174_case_wraps",
    "Zy.C174_delete_wraps"
   ],
   "note": "The functions that compute with sizes are modelled again with the number of values of size_t as a parameter; with 2^64 values they are equal to the 64-bit model. The right searches compute without wrap-around in both models. The number formatting functions are part of the histories that lead to a string; see C177 for them. Allocator calls succeed."
  },
  {
   "property": "C175",
   "status": "proved",
   "theorems": [
    "Zy.C175_is_64",
    "Zy.C175_behaves_like_booleans",
    "Zy.C175_portable",
    "Zy.C175_reachable",
    "Zy.C175_questions",
    "Zy.C175_capacity"
   ],
   "note": "The functions that compute with sizes are modelled again with the number of values of size_t as a parameter; with 2^64 values they are equal to the 64-bit model. Bitsets are initialised with a multiple of eight bits, pop is called on non-empty bitsets, push with room (see C44, C45, C79). Allocator calls succeed."
  },
  {
   "property": "C176",
   "status": "proved",
   "theorems": [
    "Zy.LT.C176_is_64",
    "Zy.LT.C176_list_is_a_deque",
    "Zy.LT.C176_short_histories_fit",
    "Zy.LT.C176_portable",
    "Zy.LT.C176_buffer",
    "Zy.LT.C176_room",
    "Zy.LT.C176_released",
    "Zy.LT.C176_wraps"
   ],
   "note": "The functions that compute with sizes are modelled again with the number of values of size_t and the size of a pointer as parameters; with 2^64 values and 8 bytes they are equal to the 64-bit model. Portability is stated for histories that leave no new element unspecified (constructors that overwrite the element, resize with an initializer). Requests to give memory back succeed (see C86)."
  },
  {
   "property": "C177",
   "status": "proved",
   "theorems": [
    "Zy.C177_is_64",
    "Zy.C177_decimal",
    "Zy.C177_hexadecimal",
    "Zy.C177_signed_decimal",
    "Zy.C177_signed_hexadecimal",
    "Zy.C177_portable",
    "Zy.C177_format",
    "Zy.C177_wraps"
   ],
   "note": "The functions that compute with sizes are modelled again with the number of values of size_t and the kind of registers as parameters; with 2^64 values and 64-bit registers they are equal to the 64-bit model. Strings of reachable states on the narrow target now include those produced by number formatting. Allocator calls succeed."
  },
  {
   "property": "C178",
   "status": "proved",
   "theorems": [
    "Zy.C178_is_64",
    "Zy.C178_portable",
    "Zy.C178_grammar",
    "Zy.C178_wraps"
   ],
   "note": "The functions that compute with sizes are modelled again with the number of values of size_t and the size of the struct as parameters; with 2^64 values and 80 bytes they are equal to the model of the other properties. C178_grammar keeps the quirk of C52 (a cluster of flags is also an unnamed argument). The wrap-around is a finding: nothing checks the product."
  },
  {
   "property": "C179",
   "status": "partial",
   "theorems": [
    "Zy.C179_reorder_partial",
    "Zy.C179_every_order_partial",
    "Zy.C179_reverse_partial",
    "Zy.C179_sort_partial",
    "Zy.C179_full_negation",
    "Zy.C179_sort_full"
   ],
   "note": "Proved for all vectors with spare capacity. False for every full vector: the slot behind the last element is used as the temporary, so each exchange is refused with INSUFFICIENT_BUFFER_SIZE, even when the allocator would grant memory; sorting or reversing then fails and changes nothing (C179_full_negation, C179_sort_full)."
  },
  {
   "property": "C180",
   "status": "proved",
   "theorems": [
    "Zy.C180_fresh",
    "Zy.C180_call",
    "Zy.C180_history",
    "Zy.C180_forever",
    "Zy.C180_buffer",
    "Zy.C180_reserved"
   ],
   "note": "A reallocation counts as the end of the old block also when the allocator returns the same address, as in the C standard. Calls that move nothing but touch element k (Spares false) are not described by this claim; what they do to the elements is in C01. The domain is that of C01, and the allocator grants every request."
  },
  {
   "property": "C181",
   "status": "proved",
   "theorems": [
    "Zy.C181_call",
    "Zy.C181_removed",
    "Zy.C181_caller_buffer"
   ],
   "note": "Where an element goes is Spec.track, which knows nothing of nodes; the pointer is got by walking from the head. Assumes, as for C46, that the list stays shorter than 2^64 and that memory can be given back."
  },
  {
   "property": "C182",
   "status": "partial",
   "theorems": [
    "Zy.C182_fresh",
    "Zy.C182_call",
    "Zy.C182_history",
    "Zy.C182_forever",
    "Zy.C182_buffer",
    "Zy.C182_reserved_partial",
    "Zy.C182_reserved_negation"
   ],
   "note": "Everything but the last sentence holds for all strings. The last holds for strings with shrink threshold 0; for every other threshold the first text appended after a large reservation gives the reserved memory back, so the views dangle (C182_reserved_negation)."
  },
  {
   "property": "C183",
   "status": "partial",
   "theorems": [
    "Zy.C183_owns_partial",
    "Zy.C183_destroy_partial",
    "Zy.C183_duplicate_negation",
    "Zy.C183_grown_negation"
   ],
   "note": "Proved for all programs without duplication and without growth by ZyanVectorResize. Both are excluded because the property fails there: after any duplication of a non-empty vector, destroying both vectors as the documentation requires is a use after free; after growth by resize without initializer, destroying the vector is always undefined."
  },
  {
   "property": "C184",
   "status": "partial",
   "theorems": [
    "Zy.C184_forward",
    "Zy.C184_backward",
    "Zy.C184_foreach_partial",
    "Zy.C184_foreach_negation"
   ],
   "note": "Proved completely for the loops with an index. ZYAN_VECTOR_FOREACH reads the size once before the loop, so the property is false there: whenever an element other than the last one is deleted, the loop dereferences a null pointer (negation for all such vectors and conditions). For the remaining vectors and conditions the property is proved."
  },
  {
   "property": "C185",
   "status": "proved",
   "theorems": [
    "Zy.C185_ample",
    "Zy.C185_two",
    "Zy.C185_noticed"
   ],
   "note": "Stated against a queue without any memory (lineStep). Operations that leave new elements unspecified (resize without an initializer, emplacement without a constructor) are not in the histories; allocators take every node back (refusals there are C86). Histories insert fewer than 2^64 elements."
  },
  {
   "property": "C186",
   "status": "proved",
   "theorems": [
    "Zy.C186_plain",
    "Zy.C186_two",
    "Zy.C186_swap"
   ],
   "note": "C186_swap states the documented exception: of two vectors with the same elements, a full one refuses every swap that one with a free slot does. Histories without unspecified elements (resize without an initializer, emplacement without a constructor); sizes in the domain of C01; the allocators grant all requests (refusals are C141)."
  },
  {
   "property": "C187",
   "status": "proved",
   "theorems": [
    "Zy.C187_plain",
    "Zy.C187_two"
   ],
   "note": "Resizing only to shorter texts (longer ones have unspecified characters); arguments in the domain of C19; the allocators grant all requests (refusals are C143)."
  },
  {
   "property": "C188",
   "status": "proved",
   "theorems": [
    "Zy.C188_queue",
    "Zy.C188_stack",
    "Zy.C188_same"
   ],
   "note": "The loops of the user are in Model/Work. The items found at an item are bounded in number by some b, and there is room for b more in every round."
  },
  {
   "property": "C189",
   "status": "proved",
   "theorems": [
    "Zy.C189_linear",
    "Zy.C189_each_once",
    "Zy.C189_alone",
    "Zy.C189_reuse"
   ],
   "note": "A client program (Spec/AtomicStack) of the model of the atomic operations, with its assumption of sequential consistency. The nodes are not given back to an allocator. C189_reuse shows that the hypothesis PushedOnce is needed."
  },
  {
   "property": "C190",
   "status": "proved",
   "theorems": [
    "Zy.C190_apart",
    "Zy.C190_each_once",
    "Zy.C190_ends",
    "Zy.C190_wrap"
   ],
   "note": "A client program (Spec/AtomicShare) of the model of the atomic operations, with its assumption of sequential consistency. C190_wrap shows that the hypothesis on the counter is needed."
  },
  {
   "property": "C191",
   "status": "proved",
   "theorems": [
    "Zy.C191_list",
    "Zy.C191_vector",
    "Zy.C191_bitset"
   ],
   "note": "The calls that undo are defined in Spec/Undo from the elements before the operation. Swapping (which needs a free slot, C186_swap) is not among the vector operations here; popping an empty bitset is excluded (C45)."
  },
  {
   "property": "C192",
   "status": "proved",
   "theorems": [
    "Zy.C192_once",
    "Zy.C192_ends",
    "Zy.C192_stuck"
   ],
   "note": "A client program (Spec/AtomicOnce) of the model of the atomic operations, with its assumption of sequential consistency. C192_stuck shows that the hypothesis on the rounds is needed."
  },
  {
   "property": "C193",
   "status": "proved",
   "theorems": [
    "Zy.C193_understood",
    "Zy.C193_too_many",
    "Zy.C193_too_few",
    "Zy.C193_missing"
   ],
   "note": "The tests of tests/ArgParse.cpp are the examples beside the theorems. A cluster of flags that ends without an option is not among the ways of writing of the tests; what the parser does with it is the subject of another property."
  },
  {
   "property": "C194",
   "status": "proved",
   "theorems": [
    "Zy.C194_turn",
    "Zy.C194_carry",
    "Zy.C194_around",
    "Zy.C194_full",
    "Zy.C194_mirror"
   ],
   "note": "The calls of the client are in Spec/Rotate. C194_full is the reason for the hypothesis on the spare node in C194_turn."
  },
  {
   "property": "C195",
   "status": "partial",
   "theorems": [
    "Zy.C195_chain_partial",
    "Zy.C195_last_refused",
    "Zy.C195_erodes",
    "Zy.C195_wraps"
   ],
   "note": "False of the code, because ZyanStringViewInsideViewEx does not count the terminator in the size of the view (C28). Proved: the chains that avoid the last character of each range work and equal one view of the combined range; every chain that uses it is refused; each view of a whole view loses one character, and when none is left the size wraps to 2^64-1."
  },
  {
   "property": "C196",
   "status": "proved",
   "theorems": [
    "Zy.C196_written",
    "Zy.C196_read_back",
    "Zy.C196_injective"
   ],
   "note": "The writing program is in Spec/Numbers, the splitting program is the one of C166. C196_read_back speaks of strings that were empty before."
  },
  {
   "property": "C197",
   "status": "proved",
   "theorems": [
    "Zy.C197_complete",
    "Zy.C197_ends",
    "Zy.C197_closed",
    "Zy.C197_too_many"
   ],
   "note": "A client program (Spec/AtomicBarrier) of the model of the atomic operations, with its assumption of sequential consistency. C197_too_many shows that the bound on the number of threads is needed, C197_closed that the hypothesis on the rounds is."
  },
  {
   "property": "C198",
   "status": "proved",
   "theorems": [
    "Zy.C198_written",
    "Zy.C198_full",
    "Zy.C198_read_back",
    "Zy.C198_injective"
   ],
   "note": "A client program (Spec/Fields) of the modelled functions; the pieces are found by the client program of C166. Sizes are below 2^64/255 as elsewhere."
  },
  {
   "property": "C199",
   "status": "proved",
   "theorems": [
    "Zy.C199_merge",
    "Zy.C199_full",
    "Zy.C199_unique",
    "Zy.C199_copy"
   ],
   "note": "A client program (Model/Merge) of the modelled functions. The target has room, or (C199_full) is a caller buffer without."
  },
  {
   "property": "C200",
   "status": "proved",
   "theorems": [
    "Zy.C200_primes",
    "Zy.C200_first",
    "Zy.C200_count"
   ],
   "note": "A client program (Model/Primes) of the modelled functions. With fewer than 2^63 bits the additions of the program do not wrap around."
  },
  {
   "property": "C201",
   "status": "proved",
   "theorems": [
    "Zy.C201_copy",
    "Zy.C201_full",
    "Zy.C201_round_trip"
   ],
   "note": "A client program (Model/Transfer) of the modelled functions. The list and the vector do not share memory. C201_copy requires room: an allocator, or a buffer that is large enough; C201_full is about the buffer that is not. C201_round_trip requires that the list is given its nodes (`Serves`)."
  }
 ]
}