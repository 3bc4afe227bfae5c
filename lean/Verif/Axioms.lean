import Verif.Props.Allocator
import Verif.Props.AnyAllocator
import Verif.Props.AnyAnswers
import Verif.Props.Api
import Verif.Props.ArgConcat
import Verif.Props.ArgDefs
import Verif.Props.ArgNormal
import Verif.Props.ArgParse
import Verif.Props.ArgParseWord
import Verif.Props.ArgWritten
import Verif.Props.Atomic
import Verif.Props.AtomicBarrier
import Verif.Props.AtomicClients
import Verif.Props.AtomicMSVC
import Verif.Props.AtomicOnce
import Verif.Props.AtomicShare
import Verif.Props.AtomicStack
import Verif.Props.BitPrograms
import Verif.Props.Bitset
import Verif.Props.BitsetCost
import Verif.Props.BitsetRefuse
import Verif.Props.BitsetSizes
import Verif.Props.BitsetWord
import Verif.Props.Build
import Verif.Props.BuildTools
import Verif.Props.ContainerDebug
import Verif.Props.Defaults
import Verif.Props.Destroyed
import Verif.Props.Dictionary
import Verif.Props.Div64
import Verif.Props.Examples
import Verif.Props.Fair
import Verif.Props.Fields
import Verif.Props.Format
import Verif.Props.FormatNeg
import Verif.Props.FormatWord
import Verif.Props.Guarded
import Verif.Props.Init
import Verif.Props.Initializers
import Verif.Props.LibC
import Verif.Props.Limits
import Verif.Props.List
import Verif.Props.ListAccess
import Verif.Props.ListNodes
import Verif.Props.ListSame
import Verif.Props.ListTarget
import Verif.Props.LockOrder
import Verif.Props.Macros
import Verif.Props.Merge
import Verif.Props.Mixed
import Verif.Props.NullPointers
import Verif.Props.NullResults
import Verif.Props.NumOrder
import Verif.Props.Numbers
import Verif.Props.Owned
import Verif.Props.Pointers
import Verif.Props.Primes
import Verif.Props.Replace
import Verif.Props.Requests
import Verif.Props.Rotate
import Verif.Props.Sgr
import Verif.Props.SharedLists
import Verif.Props.Sieve
import Verif.Props.Split
import Verif.Props.String
import Verif.Props.StringAlias
import Verif.Props.StringCost
import Verif.Props.StringData
import Verif.Props.StringDebug
import Verif.Props.StringNeg
import Verif.Props.StringPointers
import Verif.Props.StringRefuse
import Verif.Props.StringSame
import Verif.Props.StringWord
import Verif.Props.Sync
import Verif.Props.Targets
import Verif.Props.TestSuite
import Verif.Props.Thread
import Verif.Props.Together
import Verif.Props.Transfer
import Verif.Props.Types
import Verif.Props.Undo
import Verif.Props.Vector
import Verif.Props.VectorAlias
import Verif.Props.VectorBytes
import Verif.Props.VectorCost
import Verif.Props.VectorDebug
import Verif.Props.VectorDtor
import Verif.Props.VectorEach
import Verif.Props.VectorNeg
import Verif.Props.VectorOracle
import Verif.Props.VectorOrder
import Verif.Props.VectorSame
import Verif.Props.VectorShrink
import Verif.Props.VectorSwap
import Verif.Props.VectorWord
import Verif.Props.ViewChain
import Verif.Props.ViewObject
import Verif.Props.WinThreads
import Verif.Props.Windows
import Verif.Props.Work

/-!
# Axioms used by the property theorems

The build prints them; nothing beyond `propext`, `Classical.choice` and `Quot.sound` is expected.
-/

#print axioms Zy.C01_vector_behaves_like_list
#print axioms Zy.C01_init
#print axioms Zy.C01_init_buffer
#print axioms Zy.C02_memory_safe
#print axioms Zy.C02_reads_safe
#print axioms Zy.C03_fixed_never_allocates
#print axioms Zy.C03_fixed_overflow_refused
#print axioms Zy.C03_fixed_within_capacity_succeeds
#print axioms Zy.C04_refused_growth_partial
#print axioms Zy.C04_refused_resize_partial
#print axioms Zy.C04_negation
#print axioms Zy.C04_negation_all
#print axioms Zy.C05_destroyed_exactly_once
#print axioms Zy.C05_from_init
#print axioms Zy.C05_no_destructor
#print axioms Zy.C06_storage_accounting
#print axioms Zy.C06_refused_negation
#print axioms Zy.C07_get
#print axioms Zy.C07_out_of_range_rejected
#print axioms Zy.C07_set_in_range
#print axioms Zy.C07_delete_partial
#print axioms Zy.C07_negation
#print axioms Zy.C07_negation_all
#print axioms Zy.C07_delete_wrapped_rejected
#print axioms Zy.C08_find_first
#print axioms Zy.C08_find_out_of_range
#print axioms Zy.C08_find_whole
#print axioms Zy.C09_binary_search_lower_bound
#print axioms Zy.C09_binary_search_whole
#print axioms Zy.C10_binary_search_logarithmic
#print axioms Zy.C11_insert_delete_roundtrip
#print axioms Zy.C12_swap
#print axioms Zy.C12_swap_full
#print axioms Zy.C13_duplicate
#print axioms Zy.C13_duplicate_own_block
#print axioms Zy.C13_duplicate_buffer
#print axioms Zy.C14_resize_partial
#print axioms Zy.C14_negation
#print axioms Zy.C14_negation_all
#print axioms Zy.C15_emplace_success
#print axioms Zy.C15_emplace_failure_partial
#print axioms Zy.C15_negation
#print axioms Zy.C15_negation_all
#print axioms Zy.C16_push_reallocations
#print axioms Zy.C17_shrink
#print axioms Zy.C18_terminated_partial
#print axioms Zy.C18_negation
#print axioms Zy.C18_negation_all
#print axioms Zy.C19_string_behaves_like_text
#print axioms Zy.C20_fixed_within_buffer_partial
#print axioms Zy.C20_fixed_overflow_refused
#print axioms Zy.C20_negation
#print axioms Zy.C20_negation_all
#print axioms Zy.C21_left_search
#print axioms Zy.C21_left_search_whole
#print axioms Zy.C21_out_of_range
#print axioms Zy.string_view_shows
#print axioms Zy.C22_right_search
#print axioms Zy.C22_right_search_whole
#print axioms Zy.C22_out_of_range
#print axioms Zy.C23_search_ignoring_case_partial
#print axioms Zy.C23_negation
#print axioms Zy.C23_search_exact
#print axioms Zy.C23_negation_all
#print axioms Zy.C24_compare_equal
#print axioms Zy.C25_compare_order_partial
#print axioms Zy.C25_negation
#print axioms Zy.C25_negation_all
#print axioms Zy.C25_length_first
#print axioms Zy.C26_compare_ignoring_case_partial
#print axioms Zy.C26_negation
#print axioms Zy.C26_compare_exact
#print axioms Zy.C26_negation_all
#print axioms Zy.C27_lower_case
#print axioms Zy.C27_upper_case
#print axioms Zy.C27_outside_unchanged
#print axioms Zy.C27_whole
#print axioms Zy.C28_view_of_range_partial
#print axioms Zy.C28_negation
#print axioms Zy.C28_range_refused
#print axioms Zy.C28_whole_views
#print axioms Zy.C28_refusals
#print axioms Zy.C29_duplicate
#print axioms Zy.C29_concat
#print axioms Zy.C29_duplicate_buffer
#print axioms Zy.C29_concat_buffer
#print axioms Zy.C30_truncate_partial
#print axioms Zy.C30_negation
#print axioms Zy.C30_negation_all
#print axioms Zy.C31_reads_inside_partial
#print axioms Zy.C31_search_inside_partial
#print axioms Zy.C31_negation
#print axioms Zy.C31_compare_negation_all
#print axioms Zy.C31_left_search_negation_all
#print axioms Zy.C32_decimal
#print axioms Zy.C32_decimal_32
#print axioms Zy.C32_numeral_roundtrip
#print axioms Zy.C33_hexadecimal
#print axioms Zy.C33_hexadecimal_32
#print axioms Zy.C34_signed_decimal
#print axioms Zy.C34_signed_hexadecimal
#print axioms Zy.C35_unsigned_full
#print axioms Zy.C35_signed_full_partial
#print axioms Zy.C35_negation
#print axioms Zy.C35_signed_exact
#print axioms Zy.C35_negation_all
#print axioms Zy.C36_format_partial
#print axioms Zy.C36_negation_growth
#print axioms Zy.C36_negation_failure
#print axioms Zy.C36_negation_arguments
#print axioms Zy.C36_format_exact
#print axioms Zy.C36_room_for_two
#print axioms Zy.C36_negation_all
#print axioms Zy.C36_failure_exact
#print axioms Zy.C37_abs_exact
#print axioms Zy.C76_append_self_partial
#print axioms Zy.C76_negation
#print axioms Zy.C76_negation_all
#print axioms Zy.C76_same_partial
#print axioms Zy.C76_same_negation
#print axioms Zy.C77_reserve_partial
#print axioms Zy.C77_negation
#print axioms Zy.C77_negation_all
#print axioms Zy.C78_index_checks_partial
#print axioms Zy.C78_negation
#print axioms Zy.C78_left_search_negation_all
#print axioms Zy.C78_view_case_negation_all
#print axioms Zy.C78_delete_negation_all
#print axioms Zy.C78_source_negation_all
#print axioms Zy.C38_sequence_of_booleans_partial
#print axioms Zy.C39_one_bit
#print axioms Zy.C40_and_or_xor
#print axioms Zy.C40_flip
#print axioms Zy.C40_self
#print axioms Zy.C41_set_reset_all
#print axioms Zy.C42_count_partial
#print axioms Zy.C42_count_histories
#print axioms Zy.C42_negation
#print axioms Zy.C42_exact_iff
#print axioms Zy.C43_exact_partial
#print axioms Zy.C43_clean_partial
#print axioms Zy.C43_multiple_of_eight
#print axioms Zy.C43_all_always_false
#print axioms Zy.C43_negation
#print axioms Zy.C44_init_partial
#print axioms Zy.C44_init_buffer_partial
#print axioms Zy.C44_negation
#print axioms Zy.C44_usable_exact
#print axioms Zy.C45_pop_partial
#print axioms Zy.C45_negation
#print axioms Zy.C79_push_partial
#print axioms Zy.C79_negation
#print axioms Zy.C79_forever_negation
#print axioms Zy.C79_pop_negation
#print axioms Zy.C80_memory_safe
#print axioms Zy.C81_reserve_partial
#print axioms Zy.C81_negation
#print axioms Zy.C81_reserve_exact
#print axioms Zy.C81_huge_negation
#print axioms Zy.C82_msb_lsb
#print axioms Zy.C83_size_bytes
#print axioms Zy.C84_string_storage
#print axioms Zy.C84_bitset_storage
#print axioms Zy.C46_list_is_a_deque
#print axioms Zy.C46_short_histories_fit
#print axioms Zy.C47_links_consistent
#print axioms Zy.C48_whole_buffer_usable
#print axioms Zy.C48_short_buffer_negation
#print axioms Zy.C49_released_exactly_once
#print axioms Zy.C50_refusal_changes_nothing
#print axioms Zy.C51_remove_negation
#print axioms Zy.C85_aligned_nodes_partial
#print axioms Zy.C85_aligned_nodes_negation
#print axioms Zy.C86_refused_free_pop_partial
#print axioms Zy.C86_refused_free_shrink_negation
#print axioms Zy.C86_refused_free_clear_negation
#print axioms Zy.C87_emplace_partial
#print axioms Zy.C87_failing_constructor_negation
#print axioms Zy.C52_grammar_with_quirk
#print axioms Zy.C52_documented_grammar_partial
#print axioms Zy.C52_documented_grammar_fails
#print axioms Zy.C53_limits_respected
#print axioms Zy.C54_options_and_values
#print axioms Zy.C54_value_iff_declared
#print axioms Zy.C55_after_double_dash
#print axioms Zy.C56_failed_parse_owns_nothing_partial
#print axioms Zy.C56_first_request_refused
#print axioms Zy.C56_refusal_leaks
#print axioms Zy.C57_flag_cluster_partial
#print axioms Zy.C57_flag_cluster_is_also_unnamed
#print axioms Zy.C57_flag_cluster_rejected
#print axioms Zy.C88_parse_of_rendered
#print axioms Zy.C89_error_token
#print axioms Zy.C58_memmove
#print axioms Zy.C59_memcpy
#print axioms Zy.C59_memset
#print axioms Zy.C59_memcmp
#print axioms Zy.C59_memchr
#print axioms Zy.C60_strlen
#print axioms Zy.C60_strcpy
#print axioms Zy.C60_strcat
#print axioms Zy.C60_strncpy
#print axioms Zy.C60_strncat
#print axioms Zy.C61_strcmp
#print axioms Zy.C61_strncmp_partial
#print axioms Zy.C61_strncmp_reads_on
#print axioms Zy.C61_strncmp_negation
#print axioms Zy.C62_strchr
#print axioms Zy.C62_strrchr
#print axioms Zy.C62_strspn
#print axioms Zy.C62_strcspn
#print axioms Zy.C62_strpbrk
#print axioms Zy.C63_strstr_partial
#print axioms Zy.C63_empty_in_empty
#print axioms Zy.C64_strtok
#print axioms Zy.C90_transformation_partial
#print axioms Zy.C90_collation_negation
#print axioms Zy.C65_fields
#print axioms Zy.C65_masked
#print axioms Zy.C65_round_trip
#print axioms Zy.C65_complementary
#print axioms Zy.C65_predefined
#print axioms Zy.C66_align_up
#print axioms Zy.C66_align_up_wraps
#print axioms Zy.C66_is_aligned
#print axioms Zy.C67_align_down_partial
#print axioms Zy.C67_align_down_negation
#print axioms Zy.C68_power_of_two
#print axioms Zy.C69_bits_partial
#print axioms Zy.C69_needs_bit
#print axioms Zy.C69_bits_negation
#print axioms Zy.C69_bits_negation_32
#print axioms Zy.C70_numeric
#print axioms Zy.C70_signed
#print axioms Zy.C70_field
#print axioms Zy.C70_agree
#print axioms Zy.C70_valid_for_search
#print axioms Zy.C91_min_max
#print axioms Zy.C91_abs_partial
#print axioms Zy.C91_abs_negation
#print axioms Zy.C92_version
#print axioms Zy.C92_reported_version
#print axioms Zy.C93_narrow_alignment_partial
#print axioms Zy.C93_narrow_alignment_negation
#print axioms Zy.C71_allocate_partial
#print axioms Zy.C71_reallocate_partial
#print axioms Zy.C71_deallocate
#print axioms Zy.C71_allocate_negation
#print axioms Zy.C71_reallocate_negation
#print axioms Zy.C71_reallocate_dangling
#print axioms Zy.C71_history
#print axioms Zy.C94_vector
#print axioms Zy.C94_vector_buffer
#print axioms Zy.C94_string
#print axioms Zy.C94_bitset
#print axioms Zy.C94_list
#print axioms Zy.C94_allocator
#print axioms Zy.C95_vector_partial
#print axioms Zy.C95_vector_negation
#print axioms Zy.C95_string_partial
#print axioms Zy.C95_string_negation
#print axioms Zy.C72_no_lost_update
#print axioms Zy.C72_increments
#print axioms Zy.C72_distinct
#print axioms Zy.C73_one_winner
#print axioms Zy.C96_linearizable
#print axioms Zy.C74_exclusion
#print axioms Zy.C74_enter
#print axioms Zy.C74_tryEnter
#print axioms Zy.C74_leave
#print axioms Zy.C74_initialize
#print axioms Zy.C75_get
#print axioms Zy.C75_private
#print axioms Zy.C97_protect
#print axioms Zy.C97_protect_frame
#print axioms Zy.C97_free
#print axioms Zy.C97_free_succeeds
#print axioms Zy.C98_page_size_partial
#print axioms Zy.C98_page_size_negation
#print axioms Zy.C99_isTTY
#print axioms Zy.C99_enableVT100
#print axioms Zy.C100_errors
#print axioms Zy.C100_tls_alloc
#print axioms Zy.C100_tls_set
#print axioms Zy.C100_tls_free
#print axioms Zy.C100_flush
#print axioms Zy.C101_status_table
#print axioms Zy.C101_distinct
#print axioms Zy.C102_ids_partial
#print axioms Zy.C102_ids_negation
#print axioms Zy.C103_destructors
#print axioms Zy.C103_free_calls_nothing
#print axioms Zy.C104_critical_sections
#print axioms Zy.C105_thread_local
#print axioms Zy.C105_unallocated
#print axioms Zy.C105_refused
#print axioms Zy.C106_free_partial
#print axioms Zy.C106_free_negation
#print axioms Zy.C106_free_larger_negation
#print axioms Zy.C107_enableVT100
#print axioms Zy.C108_foreach_partial
#print axioms Zy.C108_foreach_defined_partial
#print axioms Zy.C108_foreach_push
#print axioms Zy.C108_foreach_negation
#print axioms Zy.C109_mutable_partial
#print axioms Zy.C109_mutable_negation
#print axioms Zy.C110_string
#print axioms Zy.C110_string_indeterminate
#print axioms Zy.C110_view_partial
#print axioms Zy.C110_view_negation
#print axioms Zy.C110_literal
#print axioms Zy.C111_string_duplicate
#print axioms Zy.C111_string_concat
#print axioms Zy.C111_vector_duplicate
#print axioms Zy.C112_same
#print axioms Zy.C112_linearizable
#print axioms Zy.C113_quotient
#print axioms Zy.C113_kernel_partial
#print axioms Zy.C113_kernel_negation
#print axioms Zy.C114_removal_partial
#print axioms Zy.C114_resize_negation
#print axioms Zy.C115_unchanged_partial
#print axioms Zy.C115_delete_negation
#print axioms Zy.C115_append_negation
#print axioms Zy.C116_neighbours
#print axioms Zy.C116_null_node
#print axioms Zy.C117_vector
#print axioms Zy.C117_string
#print axioms Zy.C117_bitset
#print axioms Zy.C117_list
#print axioms Zy.C117_arguments
#print axioms Zy.C118_set
#print axioms Zy.C118_push_partial
#print axioms Zy.C118_push_negation
#print axioms Zy.C118_insert_partial
#print axioms Zy.C118_insert_shifted_negation
#print axioms Zy.C118_insert_overlap_negation
#print axioms Zy.C118_insert_grow_negation
#print axioms Zy.C118_resize_partial
#print axioms Zy.C118_resize_negation
#print axioms Zy.C119_initialised
#print axioms Zy.C119_string
#print axioms Zy.C119_reused_partial
#print axioms Zy.C119_first_partial
#print axioms Zy.C119_local_negation
#print axioms Zy.C119_zeroed_negation
#print axioms Zy.C120_vector_partial
#print axioms Zy.C120_buffer_partial
#print axioms Zy.C120_duplicate
#print axioms Zy.C120_wrap_negation
#print axioms Zy.C121_constructors_partial
#print axioms Zy.C121_any_allocator_partial
#print axioms Zy.C121_reliable
#print axioms Zy.C121_format_partial
#print axioms Zy.C121_format_exact
#print axioms Zy.C121_format_negation
#print axioms Zy.C121_capacity_negation
#print axioms Zy.C121_view_partial
#print axioms Zy.C121_view_negation
#print axioms Zy.C121_getChar_negation
#print axioms Zy.C121_insert_negation
#print axioms Zy.C122_vector
#print axioms Zy.C122_vector_destroyed
#print axioms Zy.C122_vector_refused
#print axioms Zy.C122_string
#print axioms Zy.C122_string_destroyed
#print axioms Zy.C122_bitset
#print axioms Zy.C122_bitset_destroyed
#print axioms Zy.C122_argparse
#print axioms Zy.C122_list_partial
#print axioms Zy.C122_list_buffer
#print axioms Zy.C122_list_negation
#print axioms Zy.C123_unchanged_partial
#print axioms Zy.C123_push_negation
#print axioms Zy.C123_pop_negation
#print axioms Zy.C123_clear_negation
#print axioms Zy.C124_null_vector
#print axioms Zy.C124_null_string
#print axioms Zy.C124_null_bitset_partial
#print axioms Zy.C124_null_list_partial
#print axioms Zy.C124_null_init
#print axioms Zy.C124_null_copy
#print axioms Zy.C124_null_argument_vector_partial
#print axioms Zy.C124_null_argument_string_partial
#print axioms Zy.C124_null_argument_view_partial
#print axioms Zy.C124_null_operand
#print axioms Zy.C124_null_argument_bitset_partial
#print axioms Zy.C124_null_argument_list_partial
#print axioms Zy.C124_null_parsed
#print axioms Zy.C124_pointers_given
#print axioms Zy.C124_results_given
#print axioms Zy.C124_emplaced
#print axioms Zy.C124_emplace_full
#print axioms Zy.C124_searches
#print axioms Zy.C124_pointers
#print axioms Zy.C124_copy_status
#print axioms Zy.C124_copy_empty
#print axioms Zy.C124_init_given
#print axioms Zy.C124_queries_given
#print axioms Zy.C124_list_emplaced
#print axioms Zy.C124_bitset_negation
#print axioms Zy.C124_list_negation
#print axioms Zy.C124_getter_negation
#print axioms Zy.C124_emplace_negation
#print axioms Zy.C124_search_negation
#print axioms Zy.C124_compare_negation
#print axioms Zy.C124_config_negation
#print axioms Zy.C125_vector_partial
#print axioms Zy.C125_resize_negation
#print axioms Zy.C125_list
#print axioms Zy.C125_string_partial
#print axioms Zy.C125_string_negation
#print axioms Zy.C126_macro
#print axioms Zy.C126_output
#print axioms Zy.C126_texts
#print axioms Zy.C127_vector_partial
#print axioms Zy.C127_vector_negation
#print axioms Zy.C127_allocator_negation
#print axioms Zy.C127_assertion_negation
#print axioms Zy.C127_bitset_assertion_negation
#print axioms Zy.C127_string_partial
#print axioms Zy.C127_bitset_partial
#print axioms Zy.C127_list_partial
#print axioms Zy.C127_list_dynamic_negation
#print axioms Zy.C127_list_fixed_negation
#print axioms Zy.C128_append_partial
#print axioms Zy.C128_append_negation
#print axioms Zy.C128_insert_partial
#print axioms Zy.C128_insert_shifted_negation
#print axioms Zy.C128_insert_overlap_negation
#print axioms Zy.C128_insert_grow_negation
#print axioms Zy.C128_appendEx_same
#print axioms Zy.C128_insert_same
#print axioms Zy.C129_bitset_init
#print axioms Zy.C129_bitset
#print axioms Zy.C129_bitset_read
#print axioms Zy.C129_list
#print axioms Zy.C129_args
#print axioms Zy.C130_call
#print axioms Zy.C130_alias
#print axioms Zy.C130_init
#print axioms Zy.C130_init_buffer
#print axioms Zy.C130_duplicate
#print axioms Zy.C130_duplicate_buffer
#print axioms Zy.C130_destroy
#print axioms Zy.C130_history
#print axioms Zy.C130_search
#print axioms Zy.C131_swap_partial
#print axioms Zy.C131_swap_defined
#print axioms Zy.C131_aligned_elements
#print axioms Zy.C131_self_negation
#print axioms Zy.C131_bytes_negation
#print axioms Zy.C132_decimal
#print axioms Zy.C132_hexadecimal
#print axioms Zy.C132_signed
#print axioms Zy.C133_search
#print axioms Zy.C133_case
#print axioms Zy.C133_compare_signed
#print axioms Zy.C133_compare_partial
#print axioms Zy.C133_compare_negation
#print axioms Zy.C134_rejected
#print axioms Zy.C134_recognised
#print axioms Zy.C134_targets
#print axioms Zy.C135_debug
#print axioms Zy.C135_partial
#print axioms Zy.C135_negation_msvc
#print axioms Zy.C135_negation_unknown
#print axioms Zy.C135_negation_no_libc
#print axioms Zy.C135_unreachable
#print axioms Zy.C136_accepted
#print axioms Zy.C136_partial
#print axioms Zy.C136_negation
#print axioms Zy.C137_accepted
#print axioms Zy.C137_partial
#print axioms Zy.C137_negation
#print axioms Zy.C138_exact
#print axioms Zy.C138_partial
#print axioms Zy.C138_negation
#print axioms Zy.C139_amortised_partial
#print axioms Zy.C139_amortised_default
#print axioms Zy.C139_negation_threshold
#print axioms Zy.C139_negation_growth
#print axioms Zy.C140_sorted_insertion
#print axioms Zy.C141_same_until_refusal
#print axioms Zy.C142_example_program
#print axioms Zy.C143_strings_until_refusal
#print axioms Zy.C143_text_until_refusal
#print axioms Zy.C144_bitsets_until_refusal
#print axioms Zy.C145_together
#print axioms Zy.C145_all_returned
#print axioms Zy.C146_mixed
#print axioms Zy.C146_all_returned
#print axioms Zy.C147_disjoint_partial
#print axioms Zy.C147_all_returned
#print axioms Zy.C147_count_negation
#print axioms Zy.C148_turns
#print axioms Zy.C148_finished
#print axioms Zy.C148_progress
#print axioms Zy.C148_counter
#print axioms Zy.C148_too_deep
#print axioms Zy.C148_tries_forever
#print axioms Zy.C148_left_twice
#print axioms Zy.C149_replace_all
#print axioms Zy.C149_unique
#print axioms Zy.C150_insert_delete
#print axioms Zy.C150_append_truncate
#print axioms Zy.C150_delete_insert
#print axioms Zy.C151_texts
#print axioms Zy.C151_decimal
#print axioms Zy.C151_hexadecimal
#print axioms Zy.C151_negative
#print axioms Zy.C152_bit_by_bit
#print axioms Zy.C152_equivalent
#print axioms Zy.C153_counts_partial
#print axioms Zy.C153_complement_partial
#print axioms Zy.C153_negation
#print axioms Zy.C154_dictionary
#print axioms Zy.C154_canonical
#print axioms Zy.C155_no_use_after
#print axioms Zy.C155_destroyed_once
#print axioms Zy.C156_mutual_exclusion
#print axioms Zy.C156_serial
#print axioms Zy.C156_no_deadlock
#print axioms Zy.C157_serial
#print axioms Zy.C157_progress
#print axioms Zy.C158_concatenation
#print axioms Zy.C158_exchange
#print axioms Zy.C158_wider_limits
#print axioms Zy.C159_amortised_partial
#print axioms Zy.C159_amortised_default
#print axioms Zy.C159_negation_threshold
#print axioms Zy.C159_negation_growth
#print axioms Zy.C160_behaves_like_list
#print axioms Zy.C160_destroy
#print axioms Zy.C160_delete_storage
#print axioms Zy.C160_pop_storage
#print axioms Zy.C160_clear_storage
#print axioms Zy.C160_destroy_storage
#print axioms Zy.C160_set_self_negation
#print axioms Zy.C161_init_basic
#print axioms Zy.C161_init_advanced
#print axioms Zy.C161_init_buffer
#print axioms Zy.C161_destructor
#print axioms Zy.C161_growing_and_shrinking
#print axioms Zy.C161_element_access
#print axioms Zy.C161_push_pop
#print axioms Zy.C161_insert
#print axioms Zy.C161_delete
#print axioms Zy.C161_find
#print axioms Zy.C161_binary_search
#print axioms Zy.C161_emplace
#print axioms Zy.C161_swap
#print axioms Zy.C162_shared_lists
#print axioms Zy.C162_others_unchanged
#print axioms Zy.C162_nothing_left
#print axioms Zy.C163_amortised_partial
#print axioms Zy.C163_negation_threshold
#print axioms Zy.C163_negation_default
#print axioms Zy.C163_negation_constant
#print axioms Zy.C163_negation_growth
#print axioms Zy.C164_appended
#print axioms Zy.C164_more_definitions_partial
#print axioms Zy.C164_order_partial
#print axioms Zy.C164_first_definition
#print axioms Zy.C164_negation_duplicate
#print axioms Zy.C165_limits
#print axioms Zy.C165_usable_exact
#print axioms Zy.C165_partial
#print axioms Zy.C165_predefined
#print axioms Zy.C165_accepted
#print axioms Zy.C165_negation_icc
#print axioms Zy.C165_negation_pointer
#print axioms Zy.C165_negation_other
#print axioms Zy.C166_split
#print axioms Zy.C166_unique
#print axioms Zy.C166_join
#print axioms Zy.C166_split_join
#print axioms Zy.C166_join_split
#print axioms Zy.C166_negation_views
#print axioms Zy.C167_normal_form_partial
#print axioms Zy.C167_normal_again
#print axioms Zy.C167_negation_short
#print axioms Zy.C168_cmake
#print axioms Zy.C168_meson_partial
#print axioms Zy.C168_negation_meson
#print axioms Zy.C168_old_names
#print axioms Zy.C168_which_compilers
#print axioms Zy.C168_negation_clang
#print axioms Zy.C169_same_library
#print axioms Zy.C169_same_flags_partial
#print axioms Zy.C169_negation_soname
#print axioms Zy.C169_negation_no_libc
#print axioms Zy.C169_negation_dialect
#print axioms Zy.C170_no_deadlock
#print axioms Zy.C170_someone_can_go_on
#print axioms Zy.C170_opposite_orders
#print axioms Zy.C171_guarded
#print axioms Zy.C171_counter
#print axioms Zy.C171_no_deadlock
#print axioms Zy.C171_any_depth
#print axioms Zy.C172_ordered_fair
#print axioms Zy.C172_ordered_rounds
#print axioms Zy.C172_guarded_fair
#print axioms Zy.C172_counter_fair
#print axioms Zy.C172_windows_fair
#print axioms Zy.C172_spin_fair
#print axioms Zy.C172_spin_rounds
#print axioms Zy.C172_unfair
#print axioms Zy.C173_is_64
#print axioms Zy.C173_behaves_like_list
#print axioms Zy.C173_portable
#print axioms Zy.C173_reachable
#print axioms Zy.C173_searches
#print axioms Zy.C173_searches_is_64
#print axioms Zy.C173_signed
#print axioms Zy.C173_reserve_wraps
#print axioms Zy.C173_delete_wraps
#print axioms Zy.C174_is_64
#print axioms Zy.C174_behaves_like_text
#print axioms Zy.C174_portable
#print axioms Zy.C174_reachable
#print axioms Zy.C174_searches
#print axioms Zy.C174_searches_is_64
#print axioms Zy.C174_case_wraps
#print axioms Zy.C174_delete_wraps
#print axioms Zy.C175_is_64
#print axioms Zy.C175_behaves_like_booleans
#print axioms Zy.C175_portable
#print axioms Zy.C175_reachable
#print axioms Zy.C175_questions
#print axioms Zy.C175_capacity
#print axioms Zy.LT.C176_is_64
#print axioms Zy.LT.C176_list_is_a_deque
#print axioms Zy.LT.C176_short_histories_fit
#print axioms Zy.LT.C176_portable
#print axioms Zy.LT.C176_buffer
#print axioms Zy.LT.C176_room
#print axioms Zy.LT.C176_released
#print axioms Zy.LT.C176_wraps
#print axioms Zy.C177_is_64
#print axioms Zy.C177_decimal
#print axioms Zy.C177_hexadecimal
#print axioms Zy.C177_signed_decimal
#print axioms Zy.C177_signed_hexadecimal
#print axioms Zy.C177_portable
#print axioms Zy.C177_format
#print axioms Zy.C177_wraps
#print axioms Zy.C178_is_64
#print axioms Zy.C178_portable
#print axioms Zy.C178_grammar
#print axioms Zy.C178_wraps
#print axioms Zy.C179_reorder_partial
#print axioms Zy.C179_every_order_partial
#print axioms Zy.C179_reverse_partial
#print axioms Zy.C179_sort_partial
#print axioms Zy.C179_full_negation
#print axioms Zy.C179_sort_full
#print axioms Zy.C180_fresh
#print axioms Zy.C180_call
#print axioms Zy.C180_history
#print axioms Zy.C180_forever
#print axioms Zy.C180_buffer
#print axioms Zy.C180_reserved
#print axioms Zy.C181_call
#print axioms Zy.C181_removed
#print axioms Zy.C181_caller_buffer
#print axioms Zy.C182_fresh
#print axioms Zy.C182_call
#print axioms Zy.C182_history
#print axioms Zy.C182_forever
#print axioms Zy.C182_buffer
#print axioms Zy.C182_reserved_partial
#print axioms Zy.C182_reserved_negation
#print axioms Zy.C183_owns_partial
#print axioms Zy.C183_destroy_partial
#print axioms Zy.C183_duplicate_negation
#print axioms Zy.C183_grown_negation
#print axioms Zy.C184_forward
#print axioms Zy.C184_backward
#print axioms Zy.C184_foreach_partial
#print axioms Zy.C184_foreach_negation
#print axioms Zy.C185_ample
#print axioms Zy.C185_two
#print axioms Zy.C185_noticed
#print axioms Zy.C186_plain
#print axioms Zy.C186_two
#print axioms Zy.C186_swap
#print axioms Zy.C187_plain
#print axioms Zy.C187_two
#print axioms Zy.C188_queue
#print axioms Zy.C188_stack
#print axioms Zy.C188_same
#print axioms Zy.C189_linear
#print axioms Zy.C189_each_once
#print axioms Zy.C189_alone
#print axioms Zy.C189_reuse
#print axioms Zy.C190_apart
#print axioms Zy.C190_each_once
#print axioms Zy.C190_ends
#print axioms Zy.C190_wrap
#print axioms Zy.C191_list
#print axioms Zy.C191_vector
#print axioms Zy.C191_bitset
#print axioms Zy.C192_once
#print axioms Zy.C192_ends
#print axioms Zy.C192_stuck
#print axioms Zy.C193_understood
#print axioms Zy.C193_too_many
#print axioms Zy.C193_too_few
#print axioms Zy.C193_missing
#print axioms Zy.C194_turn
#print axioms Zy.C194_carry
#print axioms Zy.C194_around
#print axioms Zy.C194_full
#print axioms Zy.C194_mirror
#print axioms Zy.C195_chain_partial
#print axioms Zy.C195_last_refused
#print axioms Zy.C195_erodes
#print axioms Zy.C195_wraps
#print axioms Zy.C196_written
#print axioms Zy.C196_read_back
#print axioms Zy.C196_injective
#print axioms Zy.C197_complete
#print axioms Zy.C197_ends
#print axioms Zy.C197_closed
#print axioms Zy.C197_too_many
#print axioms Zy.C198_written
#print axioms Zy.C198_full
#print axioms Zy.C198_read_back
#print axioms Zy.C198_injective
#print axioms Zy.C199_merge
#print axioms Zy.C199_full
#print axioms Zy.C199_unique
#print axioms Zy.C199_copy
#print axioms Zy.C200_primes
#print axioms Zy.C200_first
#print axioms Zy.C200_count
#print axioms Zy.C201_copy
#print axioms Zy.C201_full
#print axioms Zy.C201_round_trip
