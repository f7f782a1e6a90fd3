{"claims": [
{"property": "C01", "status": "proved", "theorems": ["Gul14.Strings.c01_join", "Gul14.Strings.c01_split_join"], "note": "For every text and delimiter below npos characters; split is shown to terminate without throwing."},
{"property": "C02", "status": "proved", "theorems": ["Gul14.Strings.c02_split_cuts", "Gul14.Strings.c02_no_delimiter_in_parts", "Gul14.Strings.c02_split_empty_delimiter", "Gul14.Strings.c02_join_split", "Gul14.Strings.c02_join_split_long_delimiter_violated"], "note": "Cuts at the leftmost non-overlapping occurrences, inverse for one-character delimiters. For longer delimiters the inverse law is false; c02_join_split_long_delimiter_violated gives the witness."},
{"property": "C03", "status": "proved", "theorems": ["Gul14.Strings.c03_tokenize", "Gul14.Strings.c03_tokenize_total", "Gul14.Strings.c03_tokens_clean"], "note": "tokenize equals the maximal delimiter-free runs; termination included."},
{"property": "C04", "status": "proved", "theorems": ["Gul14.Strings.c04_replace", "Gul14.Strings.c04_replace_total", "Gul14.Strings.c04_replace_is_split_join"], "note": "Leftmost non-overlapping replacement, termination, empty needle."},
{"property": "C05", "status": "proved", "theorems": ["Gul14.Strings.c05_replace_inplace"], "note": "For needle and hammer that do not alias the modified string."},
{"property": "C06", "status": "proved", "theorems": ["Gul14.Strings.c06_trim_left", "Gul14.Strings.c06_trim_right", "Gul14.Strings.c06_trim", "Gul14.Strings.c06_spec_unique", "Gul14.Strings.c06_trim_compose", "Gul14.Strings.c06_trim_idempotent"], "note": "All three trims, unique specification, composition, idempotence."},
{"property": "C07", "status": "proved", "theorems": ["Gul14.SV.c07_find", "Gul14.SV.c07_rfind", "Gul14.SV.c07_find_first_of", "Gul14.SV.c07_find_last_of", "Gul14.SV.c07_find_first_not_of", "Gul14.SV.c07_find_last_not_of", "Gul14.SV.c07_defined"], "note": "All six searches for strings shorter than npos."},
{"property": "C08", "status": "partial", "theorems": ["Gul14.SV.c08_substr_violated", "Gul14.SV.c08_substr_throws", "Gul14.SV.c08_substr_partial", "Gul14.SV.c08_remove_prefix", "Gul14.SV.c08_remove_suffix", "Gul14.SV.c08_copy", "Gul14.SV.c08_at", "Gul14.SV.c08_front_back", "Gul14.SV.c08_compare_terminates_violated"], "note": "substr computes pos + n in size_t: c08_substr_violated shows a wrong result for a huge n; c08_substr_partial is the full statement without that wrap. compare(pos, n, ...) is noexcept but calls the throwing substr: c08_compare_terminates_violated."},
{"property": "C09", "status": "proved", "theorems": ["Gul14.SV.c09_compare", "Gul14.SV.c09_operators", "Gul14.SV.c09_operators_defined", "Gul14.SV.c09_total_order"], "note": "Sign of the lexicographic order, agreement of the operators, total order laws."},
{"property": "C10", "status": "proved", "theorems": ["Gul14.Substring.c10_contains", "Gul14.Substring.c10_contains_char", "Gul14.Substring.c10_starts_with", "Gul14.Substring.c10_ends_with", "Gul14.Substring.c10_char_versions"], "note": "String and character versions."},
{"property": "C11", "status": "proved", "theorems": ["Gul14.Substring.c11_equals_nocase", "Gul14.Substring.c11_contains_nocase", "Gul14.Substring.c11_starts_with_nocase", "Gul14.Substring.c11_ends_with_nocase", "Gul14.Substring.c11_char_versions", "Gul14.Substring.c11_recasing"], "note": "String and character versions, and independence of the case of the arguments."},
{"property": "C12", "status": "proved", "theorems": ["Gul14.Text.c12_round_trip", "Gul14.Text.c12_injective"], "note": "Every byte string; escape and unescape terminate."},
{"property": "C13", "status": "partial", "theorems": ["Gul14.Text.c13_printable_violated", "Gul14.Text.c13_printable_partial", "Gul14.Text.c13_ascii", "Gul14.Text.c13_literal", "Gul14.Text.c13_unchanged"], "note": "escape leaves DEL (0x7f) as it is: c13_printable_violated. Everything else is proved: output is ASCII, printable apart from DEL, a valid C literal body, and strings without special characters are unchanged."},
{"property": "C14", "status": "proved", "theorems": ["Gul14.Text.c14_unescape", "Gul14.Text.c14_unescape_total", "Gul14.Text.c14_unescape_plain", "Gul14.Text.c14_unescape_length"], "note": "Left-to-right decoding against an inductive specification that determines the result."},
{"property": "C15", "status": "proved", "theorems": ["Gul14.Text.c15_cat", "Gul14.ToNumber.c15_float_text", "Gul14.ToNumber.c15_inf_nan_text", "Gul14.ToNumber.c15_unsigned_read_back", "Gul14.ToNumber.c15_signed_read_back"], "note": "Any number of arguments; integers are read back by to_number. Floating-point arguments: c15_float_text (nearest multiple of a millionth, six digits)."},
{"property": "C16", "status": "proved", "theorems": ["Gul14.ToNumber.c16_unsigned", "Gul14.ToNumber.c16_signed", "Gul14.ToNumber.c16_portable_unsigned", "Gul14.ToNumber.c16_portable_signed_violated"], "note": "All widths, charconv-like loop. For the portable overflow check that is used without compiler builtins, signed types can overflow: c16_portable_signed_violated."},
{"property": "C17", "status": "partial", "theorems": ["Gul14.ToNumber.c17_value_partial", "Gul14.ToNumber.c17_accepted_partial", "Gul14.ToNumber.c17_inf_nan", "Gul14.ToNumber.c17_no_ub_partial", "Gul14.ToNumber.c17_trailing_garbage_violated", "Gul14.ToNumber.c17_exponent_overflow_violated", "Gul14.ToNumber.c17_out_of_range_violated", "Gul14.ToNumber.c17_zero_exponent_violated"], "note": "False as stated: text after 19 digits is ignored, the exponent arithmetic can overflow int, out-of-range numbers give infinity or zero, and zero with a huge exponent is rejected (the four _violated theorems). Proved under the stated bounds: acceptance and value of all numerals, acceptance of nothing else, inf/nan spellings, absence of UB. Values are rationals; the effect of floating-point rounding is the subject of C87 and C88."},
{"property": "C18", "status": "proved", "theorems": ["Gul14.ToNumber.c18_bool"], "note": "All strings."},
{"property": "C19", "status": "proved", "theorems": ["Gul14.Text.c19_hex_string", "Gul14.Text.c19_injective", "Gul14.Text.c19_range"], "note": "All widths, signed and unsigned, and ranges with separators."},
{"property": "C20", "status": "proved", "theorems": ["Gul14.Text.c20_repeat", "Gul14.Text.c20_safe_string", "Gul14.Text.c20_safe_string_null"], "note": "Reads outside the buffer are an explicit UB outcome."},
{"property": "C21", "status": "proved", "theorems": ["Gul14.Substring.c21_lower", "Gul14.Substring.c21_upper", "Gul14.Substring.c21_strings", "Gul14.Substring.c21_laws"], "note": "All bytes, copying and in-place versions."},
{"property": "C22", "status": "proved", "theorems": ["Gul14.Hexdump.c22_stream_partial", "Gul14.Hexdump.c22_hexdump", "Gul14.Hexdump.c22_read_back", "Gul14.Hexdump.c22_left_violated", "Gul14.Hexdump.c22_stream_state"], "note": "hexdump() for all data, sizes up to 8 bytes and prompts, and the text determines the elements; hexdump_stream() on a caller-supplied stream only for formatting states without left/showbase/uppercase (c22_left_violated shows why); locale is \"C\""},
{"property": "C23", "status": "proved", "theorems": ["Gul14.SlidingBuffer.c23_deque", "Gul14.SlidingBuffer.c23_bounded", "Gul14.SlidingBuffer.c23_push_zero_capacity"], "note": "Both classes, every history of allowed calls, all observers including iteration. Capacities below 2^62; element operations do not throw."},
{"property": "C24", "status": "proved", "theorems": ["Gul14.SlidingBuffer.c24_resize"], "note": "Every reachable buffer of either class; observers before and after compared."},
{"property": "C25", "status": "partial", "theorems": ["Gul14.SlidingBuffer.c25_at", "Gul14.SlidingBuffer.c25_index_in_capacity", "Gul14.SlidingBuffer.c25_beyond_size_violated", "Gul14.SlidingBuffer.c25_beyond_size_exposed_violated", "Gul14.SlidingBuffer.c25_beyond_size_partial"], "note": "at() and in-capacity [] are proved for all reachable buffers. The documented default-constructed element beyond size() is false after a pop and, for SlidingBufferExposed, after enlarging (two _violated theorems); proved for pop-free histories of SlidingBuffer."},
{"property": "C26", "status": "proved", "theorems": ["Gul14.SlidingBuffer.c26_iteration", "Gul14.SlidingBuffer.c26_arithmetic", "Gul14.SlidingBuffer.c26_stream", "Gul14.SlidingBuffer.c26_stable"], "note": "Forward and reverse iteration and iterator arithmetic."},
{"property": "C27", "status": "partial", "theorems": ["Gul14.SlidingBuffer.c27_contains_all", "Gul14.SlidingBuffer.c27_filled", "Gul14.SlidingBuffer.c27_push_back_partial", "Gul14.SlidingBuffer.c27_push_front_partial", "Gul14.SlidingBuffer.c27_empty_violated", "Gul14.SlidingBuffer.c27_push_front_violated"], "note": "False as stated: c27_empty_violated and c27_push_front_violated. Proved: the range always contains all elements; it is a rotation of them when filled, for push_back-only histories (with resize), and for push_front-only histories without resize."},
{"property": "C28", "status": "partial", "theorems": ["Gul14.SmallVector.c28_shows", "Gul14.SmallVector.c28_call", "Gul14.SmallVector.c28_history", "Gul14.SmallVector.c28_access", "Gul14.SmallVector.c28_equal", "Gul14.SmallVector.c28_erase_empty_violated", "Gul14.SmallVector.c28_noexcept_allocation_violated", "Gul14.SmallVector.c28_sample"], "note": "all histories of the 26 operations with non-aliasing arguments refine operations on lists, including capacities and returned positions; also with exceptions for the operations in Safe. Not covered: erase(p, p) before the end (violated, proved) and, under injected exceptions, the operations outside Safe"},
{"property": "C29", "status": "partial", "theorems": ["Gul14.SmallVector.c29_no_dead_access_partial", "Gul14.SmallVector.c29_balance", "Gul14.SmallVector.c29_all_freed", "Gul14.SmallVector.c29_insert_throws_violated", "Gul14.SmallVector.c29_fill_throws_violated", "Gul14.SmallVector.c29_constructor_leak_violated"], "note": "no dead access, balance and no leaks in every reachable state; exceptions are covered for the operations in Safe; for the others violations are proved"},
{"property": "C30", "status": "proved", "theorems": ["Gul14.SmallVector.c30_bounds", "Gul14.SmallVector.c30_stable", "Gul14.SmallVector.c30_no_reallocation", "Gul14.SmallVector.c30_reserve_shrink", "Gul14.SmallVector.c30_geometric", "Gul14.SmallVector.c30_amortized", "Gul14.SmallVector.c30_length_error", "Gul14.SmallVector.c30_full_reachable"], "note": "bounds, inline iff capacity = inner capacity, no reallocation while the size fits, stable memory, reserve, shrink_to_fit, geometric growth with amortized cost, length_error at the maximum size"},
{"property": "C31", "status": "partial", "theorems": ["Gul14.SmallVector.c31_own_element_partial", "Gul14.SmallVector.c31_push_back_violated", "Gul14.SmallVector.c31_insert_violated", "Gul14.SmallVector.c31_assign_violated", "Gul14.SmallVector.c31_resize_violated"], "note": "proved where the reference stays valid; violated (proved with concrete programs) for push_back/emplace_back/resize with growth, insert before the end and assign"},
{"property": "C32", "status": "partial", "theorems": ["Gul14.SmallVector.c32_strong_partial", "Gul14.SmallVector.c32_move_only_violated"], "note": "proved for elements with noexcept move or with copy constructor; for move-only elements with throwing move the violation is proved"},
{"property": "C33", "status": "proved", "theorems": ["Gul14.Spans.c33_first", "Gul14.Spans.c33_last", "Gul14.Spans.c33_subspan", "Gul14.Spans.c33_subspan_rest", "Gul14.Spans.c33_compose", "Gul14.Spans.c33_access", "Gul14.Spans.c33_write", "Gul14.Spans.c33_as_bytes", "Gul14.Spans.c33_eq", "Gul14.Spans.c33_order", "Gul14.Spans.c33_total"], "note": "Static and dynamic extents, all slices, composition, element access, writes, byte views and the six comparison operators. Arrays shorter than dynamic_extent."},
{"property": "C34", "status": "proved", "theorems": ["Gul14.Opt.c34_history", "Gul14.Opt.c34_step", "Gul14.Opt.c34_observers"], "note": "All histories of constructors, assignments (also self-assignment), emplace, swap, reset and destruction over any number of optionals, with an exception injected at any element operation of any call. emplace from an argument that refers to the old value is excluded, as for std::optional."},
{"property": "C35", "status": "proved", "theorems": ["Gul14.Opt.c35_optional_optional", "Gul14.Opt.c35_optional_nullopt", "Gul14.Opt.c35_optional_value", "Gul14.Opt.c35_order_laws", "Gul14.Opt.c35_hash"], "note": "All 30 operators; the optional<T&> overloads have the same bodies."},
{"property": "C36", "status": "proved", "theorems": ["Gul14.Exp.c36_observers", "Gul14.Exp.c36_on_value", "Gul14.Exp.c36_on_error", "Gul14.Exp.c36_void", "Gul14.Exp.c36_monad_laws", "Gul14.Exp.c36_functor_laws", "Gul14.Exp.c36_or_else_laws", "Gul14.Exp.c36_results_hold"], "note": "const& overloads (the others: C121); functions with arbitrary side effects and exceptions. expected<void, E> included."},
{"property": "C37", "status": "partial", "theorems": ["Gul14.Exp.c37_value", "Gul14.Exp.c37_value_and_unexpected", "Gul14.Exp.c37_void_partial", "Gul14.Exp.c37_void_violated"], "note": "Proved for value types, values and unexpected. For expected<void, E> operator!= returns lhs.error() == rhs.error() when both hold errors: violated, with == and the other cases proved."},
{"property": "C38", "status": "partial", "theorems": ["Gul14.Exp.c38_no_exception_partial", "Gul14.Exp.c38_exceptions_partial", "Gul14.Exp.c38_emplace_violated", "Gul14.Exp.c38_restore_error_violated", "Gul14.Exp.c38_swap_violated", "Gul14.Exp.c38_copy_assignment_violated", "Gul14.Exp.c38_copy_constructor_violated", "Gul14.Exp.c38_converting_constructor_violated", "Gul14.ExpVoid.c38_void_partial", "Gul14.ExpVoid.c38_void_nothrow_partial", "Gul14.ExpVoid.c38_void_copy_terminates"], "note": "All overloads, all histories, also of expected<void, E>. Without exceptions the claim holds. With exceptions: proved for the operations that do not construct over a destroyed object (up to std::terminate from noexcept functions); the claim is violated by emplace, value assignment, swap, copy construction and copy assignment with throwing constructors and by the converting constructors."},
{"property": "C39", "status": "proved", "theorems": ["Gul14.BitManip.c39_mask", "Gul14.BitManip.c39_bit_set", "Gul14.BitManip.c39_bit_reset", "Gul14.BitManip.c39_bit_flip", "Gul14.BitManip.c39_bit_test", "Gul14.BitManip.c39_out_of_range", "Gul14.BitManip.c39_test_after", "Gul14.BitManip.c39_flip_flip"], "note": "All widths, both signednesses, with integral promotion; out-of-range bit numbers abort (assertions enabled)."},
{"property": "C40", "status": "partial", "theorems": ["Gul14.Integer.c40_gcd_partial", "Gul14.Integer.c40_gcd_unsigned", "Gul14.Integer.c40_terminates", "Gul14.Integer.c40_most_negative_violated"], "note": "False for the most negative value: c40_most_negative_violated. Proved for all other arguments of all types, for unsigned types without exception, and termination for all arguments."},
{"property": "C41", "status": "partial", "theorems": ["Gul14.Integer.c41_lcm_partial", "Gul14.Integer.c41_zero_violated", "Gul14.Integer.c41_most_negative_violated"], "note": "False as stated: lcm(0, 5) is 0 and lcm(INT_MIN, 0) is undefined (two _violated theorems). Proved for all other arguments with a representable result."},
{"property": "C42", "status": "partial", "theorems": ["Gul14.NumUtil.c42_clamp_comp", "Gul14.NumUtil.c42_clamp_partial", "Gul14.NumUtil.c42_agree", "Gul14.NumUtil.c42_range", "Gul14.NumUtil.c42_reference_violated", "Gul14.NumUtil.c42_nan_violated"], "note": "The comparator version is proved as documented. The operator version returns a reference to lo when the documented reference is equivalent to lo, and lo for a NaN (two _violated theorems); values agree for total orders."},
{"property": "C43", "status": "partial", "theorems": ["Gul14.NumUtil.c43_integer_partial", "Gul14.NumUtil.c43_unsigned", "Gul14.NumUtil.c43_narrow_partial", "Gul14.NumUtil.c43_symmetric", "Gul14.NumUtil.c43_overflow_violated", "Gul14.NumUtil.c43_float", "Gul14.NumUtil.c43_float_symmetric", "Gul14.NumUtil.c43_float_special", "Gul14.NumUtil.c43_infinite_tolerance_violated", "Gul14.NumUtil.c43_overflow_to_infinity_violated"], "note": "Unsigned types without exception; signed types if the difference is representable and the tolerance is not the most negative value (c43_overflow_violated otherwise); symmetric always. Floating-point numbers for every faithful rounding, with infinities and NaN."},
{"property": "C44", "status": "partial", "theorems": ["Gul14.NumUtil.c44_float", "Gul14.NumUtil.c44_float_symmetric", "Gul14.NumUtil.c44_float_zero", "Gul14.NumUtil.c44_float_mono", "Gul14.NumUtil.c44_integer_partial", "Gul14.NumUtil.c44_narrow_partial", "Gul14.NumUtil.c44_unsigned_partial", "Gul14.NumUtil.c44_violated"], "note": "False for unsigned numbers in ascending order and for overflowing differences: c44_violated. Proved otherwise; the floating-point limit is computed in exact arithmetic."},
{"property": "C45", "status": "partial", "theorems": ["Gul14.Statistics.c45_mean", "Gul14.Statistics.c45_mean_bounds", "Gul14.Statistics.c45_median", "Gul14.Statistics.c45_median_perm", "Gul14.Statistics.c45_median_bounds", "Gul14.Statistics.c45_integer_result_violated"], "note": "Proved for every nth_element, all data and field-valued results (exact arithmetic). With an integer result type the two halves are truncated separately: c45_integer_result_violated."},
{"property": "C46", "status": "proved", "theorems": ["Gul14.Statistics.c46_float", "Gul14.Statistics.c46_integer", "Gul14.Statistics.c46_min_max"], "note": "Floating-point data with NaN and infinities, all integer types, agreement of min_max."},
{"property": "C47", "status": "proved", "theorems": ["Gul14.Statistics.c47_removed", "Gul14.Statistics.c47_count"], "note": "Exact arithmetic. Characterised by an inductive relation independent of the code, with count and order."},
{"property": "C48", "status": "proved", "theorems": ["Gul14.Statistics.c48_standard_deviation", "Gul14.Statistics.c48_small", "Gul14.Statistics.c48_translation", "Gul14.Statistics.c48_zero", "Gul14.Statistics.c48_rms"], "note": "Exact arithmetic in any ordered field with a square root; the real numbers meet the hypotheses."},
{"property": "C49", "status": "partial", "theorems": ["Gul14.Pool.c49_constructor", "Gul14.Pool.c49_bounded", "Gul14.Pool.c49_add", "Gul14.Pool.c49_destruction_violated"], "note": "bound, constructor limits and the outcome of add_task in every schedule, including calls that fail for lack of memory; c49_destruction_violated: while the pool is being destroyed, add_task called by a running task throws bad_weak_ptr although the queue is not full"},
{"property": "C50", "status": "proved", "theorems": ["Gul14.Pool.c50_life", "Gul14.Pool.c50_at_most_once", "Gul14.Pool.c50_never_lost"], "note": "labelled transition system with any number of clients; every task is in exactly one state of its life, is started at most once; ids have not wrapped around at 2^64 (Small)"},
{"property": "C51", "status": "proved", "theorems": ["Gul14.Pool.c51_not_early", "Gul14.Pool.c51_monotone"], "note": "for arbitrary clock behaviour: the clock had reached the start time when the worker read it; with a monotone clock also at the start"},
{"property": "C52", "status": "proved", "theorems": ["Gul14.Pool.c52_cancel_true", "Gul14.Pool.c52_cancel_false", "Gul14.Pool.c52_running_unaffected", "Gul14.Pool.c52_cancel_all"], "note": "cancel, cancel_pending_tasks in every schedule"},
{"property": "C53", "status": "proved", "theorems": ["Gul14.Pool.c53_first_due", "Gul14.Pool.c53_order", "Gul14.Pool.c53_serial"], "note": "first due task in queue order; order of starts with any number of threads when all tasks are due; serial execution with one thread"},
{"property": "C54", "status": "proved", "theorems": ["Gul14.Pool.c54_no_lost_wakeup", "Gul14.Pool.c54_terminates", "Gul14.Pool.c54_due_tasks_run"], "note": "invariant in every schedule with spurious wake-ups and arbitrary clock; bounded termination and execution of all due tasks"},
{"property": "C55", "status": "partial", "theorems": ["Gul14.Pool.c55_count_partial", "Gul14.Pool.c55_work_conserving_partial", "Gul14.Pool.c55_delayed_violated"], "note": "holds without delayed tasks (counting invariant); c55_delayed_violated is an execution with a delayed task in which a due task waits while a worker sleeps without deadline"},
{"property": "C56", "status": "proved", "theorems": ["Gul14.Pool.c56_answers", "Gul14.Pool.c56_consistent"], "note": "answers of all query functions are those of the history at the moment of the critical section"},
{"property": "C57", "status": "partial", "theorems": ["Gul14.Pool.c57_no_start", "Gul14.Pool.c57_joined", "Gul14.Pool.c57_no_access_after", "Gul14.Pool.c57_drains_partial", "Gul14.Pool.c57_self_destruction_violated"], "note": "no start after shutdown, all workers joined, no access after destruction, destructor returns after boundedly many steps if the last shared pointer is released by an outside thread; c57_self_destruction_violated: if a task releases the last shared pointer, the pool is never destroyed and std::terminate is called. Which thread releases it: C101"},
{"property": "C58", "status": "partial", "theorems": ["Gul14.Pool.c58_is_complete", "Gul14.Pool.c58_is_complete_partial", "Gul14.Pool.c58_get_state", "Gul14.Pool.c58_get_state_partial", "Gul14.Pool.c58_cancel_running_violated", "Gul14.Pool.c58_after_result_violated", "Gul14.Pool.c58_cancel_all_violated"], "note": "exact reports of get_state and is_complete for all histories; they agree with the documentation for the histories named in the partial theorems; three violated theorems (cancel() on a running task, after get_result(), after cancel_pending_tasks())"},
{"property": "C59", "status": "proved", "theorems": ["Gul14.Trigger.c59_level", "Gul14.Trigger.c59_results", "Gul14.Trigger.c59_not_early", "Gul14.Trigger.c59_no_lost_wakeup", "Gul14.Trigger.c59_terminates", "Gul14.Trigger.c59_resume"], "note": "labelled transition system with any number of threads, spurious wake-ups, timeouts and two clocks; level, results, no early timeout, no lost wake-up, bounded termination and resumption of all waiters while the trigger stays high"},
{"property": "C60", "status": "partial", "theorems": ["Gul14.Trigger.c60_trigger_resumes_partial", "Gul14.Trigger.c60_pulse_lost_violated"], "note": "holds if no reset follows before the waiters have reacquired the mutex (partial theorem); c60_pulse_lost_violated is an execution in which the pulse is lost"},
{"property": "C61", "status": "partial", "theorems": ["Gul14.Trigger.c61_destructor_resumes_partial", "Gul14.Trigger.c61_destroyed_too_early_violated"], "note": "the signal of the destructor resumes all waiters in every schedule, but the destructor does not wait for them: c61_destroyed_too_early_violated is an execution in which a resumed thread accesses the destroyed object"},
{"property": "C62", "status": "proved", "theorems": ["Gul14.Trigger.c62_sleep", "Gul14.Trigger.c62_standing_trigger"], "note": "results of sleep in every schedule; a standing trigger ends the sleep within a bounded number of steps"},
{"property": "C63", "status": "partial", "theorems": ["Gul14.Finalizer.c63_at_most_once", "Gul14.Finalizer.c63_as_documented_partial", "Gul14.Finalizer.c63_exactly_once_partial", "Gul14.Finalizer.c63_never_lost_partial", "Gul14.Finalizer.c63_throwing_action", "Gul14.Finalizer.c63_move_assignment_violated"], "note": "at-most-once for all histories; exactly once, at destruction of the owner and in that order, for histories without a move assignment onto an object that still owns an action; the code drops that action (violated theorem); throwing actions terminate"},
{"property": "C64", "status": "partial", "theorems": ["Gul14.TypeName.c64_type_name_partial", "Gul14.TypeName.c64_semicolon_violated", "Gul14.TypeName.c64_type_name_msvc"], "note": "GCC/Clang branch for spellings without a semicolon (violated theorem otherwise) and MSVC branch"},
{"property": "C65", "status": "partial", "theorems": ["Gul14.CatObjects.c65_shows_partial", "Gul14.CatObjects.c65_copy_violated"], "note": "False as stated: c65_copy_violated. c65_shows_partial states exactly what every object shows after every history of constructions, copies and destructions."},
{"property": "C66", "status": "partial", "theorems": ["Gul14.SlidingBuffer.c66_moved_from_violated", "Gul14.SlidingBuffer.c66_moved_from_clear_partial"], "note": "False as stated: c66_moved_from_violated. After clear() the buffer is usable again."},
{"property": "C67", "status": "proved", "theorems": ["Gul14.OptRef.c67_objects_untouched", "Gul14.OptRef.c67_rebind", "Gul14.OptRef.c67_observe"], "note": ""},
{"property": "C68", "status": "proved", "theorems": ["Gul14.Stream.c68_insert_view", "Gul14.Stream.c68_padding"], "note": "All widths, fills, adjustments; write errors are not modelled."},
{"property": "C69", "status": "proved", "theorems": ["Gul14.Hexdump.c69_forward"], "note": "Container mode, all histories; what a moved-from container contains is arbitrary. Default-constructed helpers are excluded."},
{"property": "C70", "status": "proved", "theorems": ["Gul14.Pool.c70_get_result", "Gul14.Pool.c70_at_most_once", "Gul14.Pool.c70_available"], "note": "results of get_result for all histories"},
{"property": "C71", "status": "proved", "theorems": ["Gul14.Date.c71_calendar_bijection", "Gul14.Date.c71_to_days", "Gul14.Date.c71_from_days", "Gul14.Date.c71_round_trip", "Gul14.Date.c71_round_trip_days", "Gul14.Date.c71_representable", "Gul14.Date.c71_day_overflow", "Gul14.Date.c71_from_days_outside"], "note": "dates against day-by-day counting; c71_from_days_outside says what happens outside the representable years (the year is reduced to 16 bits) and which counts overflow int"},
{"property": "C72", "status": "proved", "theorems": ["Gul14.Date.c72_leap", "Gul14.Date.c72_last_day", "Gul14.Date.c72_ok", "Gul14.Date.c72_month_day_ok", "Gul14.Date.c72_last", "Gul14.Date.c72_from_days_ok", "Gul14.Date.c72_fields_ok"], "note": "all field values"},
{"property": "C73", "status": "proved", "theorems": ["Gul14.Date.c73_weekday", "Gul14.Date.c73_cycle", "Gul14.Date.c73_plus", "Gul14.Date.c73_minus_days", "Gul14.Date.c73_minus", "Gul14.Date.c73_ok"], "note": "all 2^32 day counts"},
{"property": "C74", "status": "proved", "theorems": ["Gul14.Date.c74_month_plus", "Gul14.Date.c74_month_minus", "Gul14.Date.c74_year_month_plus", "Gul14.Date.c74_year_month_minus", "Gul14.Date.c74_year_month_inverse", "Gul14.Date.c74_date_plus_months", "Gul14.Date.c74_date_plus_years", "Gul14.Date.c74_minus_months", "Gul14.Date.c74_year_month_plus_years", "Gul14.Date.c74_days"], "note": "all counts for which the int arithmetic does not overflow and the year is representable"},
{"property": "C75", "status": "proved", "theorems": ["Gul14.Date.c75_from_days", "Gul14.Date.c75_ok", "Gul14.Date.c75_to_days", "Gul14.Date.c75_index_steps", "Gul14.Date.c75_last", "Gul14.Date.c75_last_ok"], "note": "count of weekdays in the month as specification"},
{"property": "C76", "status": "proved", "theorems": ["Gul14.Date.c76_order", "Gul14.Date.c76_total", "Gul14.Date.c76_year_month"], "note": ""},
{"property": "C77", "status": "proved", "theorems": ["Gul14.Date.c77_width", "Gul14.Date.c77_ranges", "Gul14.Date.c77_to_duration", "Gul14.Date.c77_exact", "Gul14.Date.c77_conventional", "Gul14.Date.c77_clock"], "note": "integer representations without overflow; every tick length 1/T second"},
{"property": "C78", "status": "proved", "theorems": ["Gul14.Date.c78_trunc", "Gul14.Date.c78_floor", "Gul14.Date.c78_ceil", "Gul14.Date.c78_round", "Gul14.Date.c78_exact", "Gul14.Date.c78_abs"], "note": "integer representations without overflow"},
{"property": "C79", "status": "proved", "theorems": ["Gul14.Date.c79_date", "Gul14.Date.c79_not_a_date", "Gul14.Date.c79_year", "Gul14.Date.c79_time_of_day", "Gul14.Date.c79_sys_time", "Gul14.Date.c79_injective"], "note": "streams with default flags and no width, classic locale; years are written without leading zeros by operator<<(year_month_day)"},
{"property": "C80", "status": "proved", "theorems": ["Gul14.Var.c80_history", "Gul14.Var.c80_never_valueless"], "note": "at most one element operation throws per operation (the first one, which then propagates); the values of all alternatives are drawn from one type"},
{"property": "C81", "status": "proved", "theorems": ["Gul14.Var.c81_call", "Gul14.Var.c81_value_strong", "Gul14.Var.c81_copy_strong", "Gul14.Var.c81_frame", "Gul14.Var.c81_only_emplace"], "note": "arguments of assignments and emplace are values outside of the variant"},
{"property": "C82", "status": "proved", "theorems": ["Gul14.Var.c82_swap", "Gul14.Var.c82_swap_throws"], "note": ""},
{"property": "C83", "status": "proved", "theorems": ["Gul14.Var.c83_operators", "Gul14.Var.c83_same_alternative", "Gul14.Var.c83_order_laws", "Gul14.Var.c83_monostate"], "note": ""},
{"property": "C84", "status": "proved", "theorems": ["Gul14.Var.c84_by_type", "Gul14.Var.c84_access", "Gul14.Var.c84_visit"], "note": ""},
{"property": "C85", "status": "proved", "theorems": ["Gul14.Var.c85_hash"], "note": "size_t has 64 bits"},
{"property": "C86", "status": "proved", "theorems": ["Gul14.Strings.c86_split", "Gul14.Strings.c86_weave", "Gul14.Strings.c86_no_delimiter", "Gul14.Strings.c86_literal"], "note": "std::regex is a parameter with the contract of the C++ standard: regex_search finds a leftmost match permitted by the flags; the iterator is modelled as the standard defines it."},
{"property": "C87", "status": "proved", "theorems": ["Gul14.ToNumber.c87_double", "Gul14.ToNumber.c87_float", "Gul14.ToNumber.c87_long_double", "Gul14.ToNumber.c87_overflow"], "note": "IEEE 754 arithmetic, rounding to nearest even, double with 53 and long double with 64 bits precision (x86-64); from 10^-4931 to the largest number of the type less a relative 2^-50."},
{"property": "C88", "status": "partial", "theorems": ["Gul14.ToNumber.c88_float", "Gul14.ToNumber.c88_double_partial", "Gul14.ToNumber.c88_double_violated", "Gul14.ToNumber.c88_long_double_violated"], "note": "Holds for float. Violated for double and long double (109, 105); for double proved if the mantissa in scientific notation is a double as well."},
{"property": "C89", "status": "partial", "theorems": ["Gul14.NumUtil.c89_steps", "Gul14.NumUtil.c89_distance_partial", "Gul14.NumUtil.c89_zero", "Gul14.NumUtil.c89_special", "Gul14.NumUtil.c89_symmetric", "Gul14.NumUtil.c89_violated"], "note": "IEEE formats binary32, binary64 and x87 extended. Everything at most ulp steps apart is accepted (c89_steps); accepted numbers differ by at most 2*ulp units in the last place of the larger one (c89_distance_partial), ulp = 0 is equality; symmetry and the special values are full. The documented bound on the number of steps is violated (c89_violated)."},
{"property": "C90", "status": "partial", "theorems": ["Gul14.Date.c90_sys_time_partial", "Gul14.Date.c90_local_time_partial", "Gul14.Date.c90_date_partial", "Gul14.Date.c90_duration_partial", "Gul14.Date.c90_violated"], "note": "Everything but %D for negative years, %F for the years -999 to -1 and %I for durations from 24 hours on, which are violated (c90_violated); years -32765 to 32766; output of std::time_put is a parameter."},
{"property": "C91", "status": "partial", "theorems": ["Gul14.Date.c91_negative_partial", "Gul14.Date.c91_violated"], "note": "All formats without %j; %R is violated (c91_violated)."},
{"property": "C92", "status": "partial", "theorems": ["Gul14.Date.Names.c92_names_sys_time_partial", "Gul14.Date.Names.c92_names_local_time_partial", "Gul14.Date.Names.c92_names_date_partial", "Gul14.Date.c92_reads_partial", "Gul14.Date.c92_sys_time_partial", "Gul14.Date.c92_local_time_partial", "Gul14.Date.c92_date_partial", "Gul14.Date.c92_duration_partial", "Gul14.Date.c92_told_complete", "Gul14.Date.c92_violated"], "note": "Formats of literal characters, white space, the numeric conversions without the locale and %z; with names of weekdays and months, %I with %p, %e, %n, %t and %Z if the facets of the locale fit together (c92_names_*). Years of four digits; two-digit years 1969 to 2068 or with the century or the full year. Violated for five-digit years, %e, %Y with %y before the year 0, %y with %g, %H with %I (c92_violated)."},
{"property": "C93", "status": "partial", "theorems": ["Gul14.Date.c93_date_partial", "Gul14.Date.c93_sys_time_partial", "Gul14.Date.c93_local_time_partial", "Gul14.Date.c93_duration_partial", "Gul14.Date.c93_violated", "Gul14.Date.Words.c93_names_date_partial", "Gul14.Date.Words.c93_names_sys_time_partial", "Gul14.Date.Words.c93_names_local_time_partial", "Gul14.Date.Words.c93_names_violated"], "note": "Formats of literal characters, white space, the numeric conversions without the locale and %z, default widths; with names of weekdays and months, %I, %p, %e, %n and %Z if the facet of the locale accepts only the words of a language (c93_names_*). Excluded: %C without the year in the century; one of %G, %V without the other together with %U or %W; %p without %I. Days and weeks that the year does not have are accepted, as are months and days that are zero (c93_violated); %p is ignored without %I, and so is what follows %t at the end of the text (c93_names_violated)."},
{"property": "C94", "status": "partial", "theorems": ["Gul14.Date.AnyFormat.c94_any_calendar_partial", "Gul14.Date.AnyFormat.c94_any_time_partial", "Gul14.Date.AnyFormat.c94_widths_violated", "Gul14.Date.c94_calendar_partial", "Gul14.Date.c94_time_partial", "Gul14.Date.c94_duration_fits_partial", "Gul14.Date.c94_sys_time_fits_partial", "Gul14.Date.c94_local_time_fits_partial", "Gul14.Date.c94_violated"], "note": "Every format, with widths between 1 and 7 and a time_get facet that yields values a broken-down time can have (c94_any_*); larger widths can overflow (c94_widths_violated). With %z, two digits must follow each minus sign of the text; numbers of seconds must fit (always so with up to seven decimals); otherwise violated (c94_violated). Sums fit into 64 bits for time points of up to seven decimals and durations of up to nine, shown for formats of numeric conversions."},
{"property": "C95", "status": "partial", "theorems": ["Gul14.SlidingBuffer.c95_valid_partial", "Gul14.SlidingBuffer.c95_usable_partial", "Gul14.SlidingBuffer.c95_push_back_partial", "Gul14.SlidingBuffer.c95_push_front_partial", "Gul14.SlidingBuffer.c95_clear", "Gul14.SlidingBuffer.c95_resize_partial", "Gul14.SlidingBuffer.c95_violated", "Gul14.SlidingBuffer.c95_own_element"], "note": "Validity after any history of returning and throwing calls for SlidingBuffer, and for SlidingBufferExposed unless resize to a smaller capacity throws; what is left of the elements after each failure. The elements are not kept in general by resize and push_front, and the exposed buffer can become inconsistent (c95_violated)."},
{"property": "C96", "status": "proved", "theorems": ["Gul14.SV.c96_cstring", "Gul14.SV.c96_views", "Gul14.SV.c96_search_cstring", "Gul14.SV.c96_search_pointer", "Gul14.SV.c96_search_char", "Gul14.SV.c96_search_whole", "Gul14.SV.c96_search_whole_char", "Gul14.SV.c96_compare", "Gul14.SV.c96_compare_throws", "Gul14.SV.c96_operators_string", "Gul14.SV.c96_operators_cstring", "Gul14.SV.c96_string", "Gul14.SV.c96_string_round_trip", "Gul14.SV.c96_swap"], "note": "All overloads for C strings, pointers with a length, characters and std::string; default positions; conversion and concatenation."},
{"property": "C97", "status": "proved", "theorems": ["Gul14.Statistics.c97_mean", "Gul14.Statistics.c97_mean_exact", "Gul14.Statistics.c97_rms", "Gul14.Statistics.c97_standard_deviation", "Gul14.Statistics.c97_not_nan", "Gul14.Statistics.c97_nan", "Gul14.Statistics.c97_median", "Gul14.Statistics.c97_outliers_count", "Gul14.Statistics.c97_outliers", "Gul14.Statistics.c97_mean_limits", "Gul14.Statistics.c97_rms_limits", "Gul14.Statistics.c97_median_limits"], "note": "Verif/Statistics/Ieee.lean models the functions with IEEE 754 operations rounded to nearest (format of the result type; std::pow in the format to which it promotes), std::sqrt correctly rounded, std::pow(x, 2) within one unit in the last place, std::nth_element by its contract. The two zeros are not distinguished. c97_*_limits show that the bounds cannot be sharpened to what holds in exact arithmetic. Excess precision and other rounding modes are not modelled; remove_outliers of long double data is not."},
{"property": "C98", "status": "proved", "theorems": ["Gul14.Date.c98_order", "Gul14.Date.c98_order_inner", "Gul14.Date.c98_numbers", "Gul14.Date.c98_ok", "Gul14.Date.c98_total", "Gul14.Date.c98_month_day", "Gul14.Date.c98_last_order", "Gul14.Date.c98_weekday_equal", "Gul14.Date.c98_weekday_last_equal", "Gul14.Date.c98_month_weekday_ok", "Gul14.Date.c98_month_weekday_last_ok", "Gul14.Date.c98_indexed", "Gul14.Date.c98_month_weekday_equal", "Gul14.Date.c98_day_year_inc", "Gul14.Date.c98_year_difference", "Gul14.Date.c98_cycle_inc", "Gul14.Date.c98_plus_months", "Gul14.Date.c98_plus_years", "Gul14.Date.c98_plus_months_weekday", "Gul14.Date.c98_plus_months_last"], "note": "All overloads of operator/, all comparisons, increments and month/year arithmetic of the partial date classes. Numbers beyond the width of a field are reduced modulo 2^8 or 2^16, as the code does; an example shows that month number 257 is January and ok."},
{"property": "C99", "status": "partial", "theorems": ["Gul14.Exp.Members.c99_copy_construct", "Gul14.Exp.Members.c99_move_construct_cases", "Gul14.Exp.Members.c99_move_construct_partial", "Gul14.Exp.Members.c99_move_construct_fallback", "Gul14.Exp.Members.c99_move_construct_violated", "Gul14.Exp.Members.c99_copy_assign", "Gul14.Exp.Members.c99_move_assign_cases", "Gul14.Exp.Members.c99_move_assign_partial", "Gul14.Exp.Members.c99_move_assign_fallback", "Gul14.Exp.Members.c99_move_assign_violated"], "note": "Construction and assignment from lvalues and rvalues are characterised exactly for all T (or void) and E. The claim that a move moves is false for types with trivial moves and non-trivial copies (c99_move_construct_violated, c99_move_assign_violated). The rules of C++14 for special member functions are part of the model."},
{"property": "C100", "status": "partial", "theorems": ["Gul14.Pool.c100_add", "Gul14.Pool.c100_add_points", "Gul14.Pool.c100_names", "Gul14.Pool.c100_worker_partial", "Gul14.Pool.c100_construct_partial", "Gul14.Pool.c100_construct_violated", "Gul14.Pool.c100_worker_violated"], "note": "add_task and get_pending_task_names with every point of failure are steps of the pool that change nothing; c100_construct_violated: a thread but the first cannot be started; c100_worker_violated: no memory for the list of running tasks"},
{"property": "C101", "status": "partial", "theorems": ["Gul14.Pool.Own.c101_when", "Gul14.Pool.Own.c101_kept", "Gul14.Pool.Own.c101_outside", "Gul14.Pool.Own.c101_last", "Gul14.Pool.Own.c101_partial", "Gul14.Pool.Own.c101_add_task_violated", "Gul14.Pool.Own.c101_handle_violated", "Gul14.Pool.Own.c101_function_violated"], "note": "use count and destructor for all interleavings; an outside thread never owns the mutex when it enters the destructor; c101_add_task_violated, c101_handle_violated, c101_function_violated: a worker enters the destructor"},
{"property": "C102", "status": "proved", "theorems": ["Gul14.Date.Parts.c102_calendar", "Gul14.Date.Parts.c102_weekday", "Gul14.Date.Parts.c102_numbers", "Gul14.Date.Parts.c102_duration", "Gul14.Date.Parts.c102_units", "Gul14.Date.Parts.c102_form", "Gul14.Date.Parts.c102_weekday_form"], "note": "one text per value up to operator==, for all 14 calendar classes and all values; hypothesis on the names of the locale (Good), shown for the classic one; durations injective for all counts and ratios, form of the units against a table of SI prefixes"},
{"property": "C103", "status": "partial", "theorems": ["Gul14.NumUtil.c103_symmetric", "Gul14.NumUtil.c103_equal_partial", "Gul14.NumUtil.c103_special", "Gul14.NumUtil.c103_equal_violated", "Gul14.NumUtil.c103_accuracy", "Gul14.NumUtil.c103_many_digits"], "note": "IEEE arithmetic, std::pow as any function accurate to one ulp (roundedPow10 is one). Full: symmetry, special values, accuracy for finite numbers, more digits than the format has. c103_equal_partial: equal finite numbers; c103_equal_violated: two equal infinities are rejected although the documentation promises true."},
{"property": "C104", "status": "proved", "theorems": ["Gul14.Var.c104_value", "Gul14.Var.c104_bool", "Gul14.Var.c104_choice", "Gul14.Var.c104_same", "Gul14.Var.c104_object"], "note": "c104_value, c104_bool: no value changes, only a bool is stored as a bool. c104_choice: which alternative is chosen, in terms of sets of values. c104_same: the own type, if it occurs once. c104_object: an alternative of exactly the type of the argument. Not modelled: tie-breaks between conversions of the same rank other than those of arithmetic types (base classes, references), GCC 4; sizes of types of 64-bit Unix."},
{"property": "C105", "status": "partial", "theorems": ["Gul14.Spans.c105_elements", "Gul14.Spans.c105_extent", "Gul14.Spans.c105_const", "Gul14.Spans.c105_complete_partial", "Gul14.Spans.c105_complete_violated", "Gul14.Spans.c105_unique", "Gul14.Spans.c105_pointers"], "note": "c105_elements, c105_extent, c105_const, c105_unique, c105_pointers: full. c105_complete_partial: every compatible source except std::array with const or volatile elements; c105_complete_violated: these cannot be used, contrary to std::span. Qualifiers inside the element type (pointer to const) count as another type."},
{"property": "C106", "status": "partial", "theorems": ["Gul14.Pool.c106_delay_partial", "Gul14.Pool.c106_due", "Gul14.Pool.c106_defined", "Gul14.Pool.c106_delay_violated"], "note": "c106_delay_partial: every execution, if the start time can be represented; c106_defined: exactly when; c106_delay_violated: longer delays overflow; c106_due: when a task is due."},
{"property": "C107", "status": "partial", "theorems": ["Gul14.Var.Members.c107_copy_construct", "Gul14.Var.Members.c107_move_construct", "Gul14.Var.Members.c107_move_construct_fallback", "Gul14.Var.Members.c107_copy_assign_cases", "Gul14.Var.Members.c107_copy_assign_partial", "Gul14.Var.Members.c107_copy_assign_violated", "Gul14.Var.Members.c107_move_assign", "Gul14.Var.Members.c107_move_assign_fallback", "Gul14.Var.Members.c107_destroy", "Gul14.Var.Members.c107_nothrow", "Gul14.Var.Members.c107_model"], "note": "c107_copy_construct, c107_move_construct, c107_move_assign (and _fallback), c107_destroy, c107_nothrow: full. c107_copy_assign_partial: if all alternatives can be moved; c107_copy_assign_cases: all cases; c107_copy_assign_violated: a type with a deleted move constructor. c107_model: the model of the operations chooses accordingly. Alternatives can be destroyed; a trivial operation counts as noexcept."},
{"property": "C108", "status": "proved", "theorems": ["Gul14.Pool.c108_due_task_starts", "Gul14.Pool.c108_due_task_finishes", "Gul14.Pool.c108_calls_return", "Gul14.Pool.c108_destruction_ends", "Gul14.Pool.c108_result_available"], "note": "fairness is assumed for each thread separately and for the mutex (strong fairness), and that the functions of the tasks return; task ids are assumed not to wrap around; the examples give executions that meet the hypotheses"},
{"property": "C109", "status": "proved", "theorems": ["Gul14.Trigger.c109_calls_return", "Gul14.Trigger.c109_standing_trigger", "Gul14.Trigger.c109_timed_waits_return"], "note": "assumes strong fairness for each thread and for the mutex, and that a timed wait of the condition variable reports a timeout if the deadline has passed when the mutex has been reacquired; the object is not destroyed while it is used (see C61)"},
{"property": "C110", "status": "partial", "theorems": ["Gul14.Strings.Views.c110_split_sv", "Gul14.Strings.Views.c110_tokenize_sv", "Gul14.Strings.Views.c110_trim_sv_partial", "Gul14.Strings.Views.c110_trim_sv_violated"], "note": "violated by trim_sv, trim_left_sv and trim_right_sv for texts of whitespace only (c110_trim_sv_violated): the view returned does not point into the text, contrary to the documentation; proved for all other texts and for split_sv and tokenize_sv without exception"},
{"property": "C111", "status": "partial", "theorems": ["Gul14.Strings.Alias.c111_own_partial", "Gul14.Strings.Alias.c111_absent_partial", "Gul14.Strings.Alias.c111_needle_violated", "Gul14.Strings.Alias.c111_hammer_violated"], "note": "violated (c111_needle_violated, c111_hammer_violated): undefined behaviour for every needle that is a part of the text and for every hammer that is, if the needle occurs; proved for arguments in memory of their own and if the needle does not occur"},
{"property": "C112", "status": "partial", "theorems": ["Gul14.Pool.User.c112_functions_partial", "Gul14.Pool.User.c112_constructor_violated", "Gul14.Pool.User.c112_destructor_violated"], "note": "violated by constructors and destructors of function objects that call the pool (c112_constructor_violated, c112_destructor_violated): they run while the thread owns the mutex; proved for functions of tasks, whatever they call"},
{"property": "C113", "status": "proved", "theorems": ["Gul14.Date.Incomplete.c113_year", "Gul14.Date.Incomplete.c113_month", "Gul14.Date.Incomplete.c113_day", "Gul14.Date.Incomplete.c113_weekday", "Gul14.Date.Incomplete.c113_year_month", "Gul14.Date.Incomplete.c113_month_day", "Gul14.Date.Incomplete.c113_no_date", "Gul14.Date.Incomplete.c113_date_and_weekday"], "note": "The seven types are those for which the code has an overload of to_stream other than dates, times and durations. Throws: the stream that format uses throws when failbit is set. Facets of std::time_put are a parameter."},
{"property": "C114", "status": "partial", "theorems": ["Gul14.Date.Plain.c114_meaningless_partial", "Gul14.Date.Plain.c114_cut_off_partial", "Gul14.Date.Plain.c114_violated"], "note": "Violated for a specification cut off by the end of the format when the end of the input was already seen, and for widths with leading zeros (c114_violated). Proved for widths without leading zeros of up to nine digits, and for letters other than white space."},
{"property": "C115", "status": "proved", "theorems": ["Gul14.Pool.Race.c115_thread_pool", "Gul14.Pool.Race.c115_mutex", "Gul14.Trigger.Race.c115_trigger"], "note": "Task objects, packaged tasks and futures are not members of the pool and are left out (C101 has the shared pointers). A pool destroyed by one of its own tasks is in C57, a trigger destroyed while another thread uses it is in C61."},
{"property": "C116", "status": "proved", "theorems": ["Gul14.Pool.Linear.c116_atomic"], "note": "Linearizability of the queue and the lists of running tasks. The futures of the tasks are not part of the table: cancel_pending_tasks breaks the promises of the tasks one after the other."},
{"property": "C117", "status": "proved", "theorems": ["Gul14.TimeUtil.c117_units", "Gul14.TimeUtil.c117_nanoseconds", "Gul14.TimeUtil.c117_usual_units", "Gul14.TimeUtil.c117_seconds"], "note": "The clock counts nanoseconds with 64 bits and does not go backwards; counts of 64 bits or double."},
{"property": "C118", "status": "partial", "theorems": ["Gul14.Date.Parts.c118_year_partial", "Gul14.Date.Parts.c118_month_partial", "Gul14.Date.Parts.c118_day_partial", "Gul14.Date.Parts.c118_weekday_partial", "Gul14.Date.Parts.c118_year_month_partial", "Gul14.Date.Parts.c118_month_day_partial", "Gul14.Date.Parts.c118_violated"], "note": "Proved: an accepted text says what is stored, for all formats made of literal characters, white space and %Y %y %C %m %b %B %h %d %e %D %F %u %w %a %A %% %n; a month or day of zero counts as not said. Missing: formats with %C but neither %y nor %D, where the century is ignored; year_month if the format has no year; both fail (c118_violated), and so does \"not longer than the month\": February 30 is accepted for a month_day. Also not covered: week numbers, day of the year and times in the format."},
{"property": "C119", "status": "proved", "theorems": ["Gul14.Date.Parts.c119_year", "Gul14.Date.Parts.c119_month", "Gul14.Date.Parts.c119_day", "Gul14.Date.Parts.c119_weekday", "Gul14.Date.Parts.c119_year_month", "Gul14.Date.Parts.c119_month_day"], "note": "c119_year, c119_month, c119_day, c119_weekday, c119_year_month, c119_month_day: for every readable format (Legible, YearLegible) that mentions the parts, format succeeds, and parse of its text stores the value, consumes the text and does not fail. The restrictions are in the quantifier; what happens without them is in C92 and C118."},
{"property": "C120", "status": "proved", "theorems": ["Gul14.ToNumber.c120_double", "Gul14.ToNumber.c120_float_exact", "Gul14.ToNumber.c120_float", "Gul14.ToNumber.c120_inf_nan"], "note": "c120_double, c120_float, c120_float_exact, c120_inf_nan. The text of a floating-point number is that of std::vsnprintf with %f (modelled: exact value rounded to six decimals, ties to even; c15_float_text says what it looks like); to_number is the model in IEEE arithmetic of C87."},
{"property": "C121", "status": "partial", "theorems": ["Gul14.Exp.Overloads.c121_same_result", "Gul14.Exp.Overloads.c121_same_result_void", "Gul14.Exp.Overloads.c121_or_else_void_partial", "Gul14.Exp.Overloads.c121_or_else_void_violated", "Gul14.Exp.Overloads.c121_const_untouched", "Gul14.Exp.Overloads.c121_lvalue", "Gul14.Exp.Overloads.c121_rvalue_moves", "Gul14.Exp.Overloads.c121_chain"], "note": "All four overloads, with the object as part of the state; every operation gives the result and the side effects of C36 (c121_same_result, c121_same_result_void), chains on temporaries as well (c121_chain). Missing: or_else on an rvalue or lvalue with a function that returns nothing and changes its argument; there the claim is false (c121_or_else_void_violated): a function that takes the error by value makes or_else return the moved-from error."},
{"property": "C122", "status": "proved", "theorems": ["Gul14.Date.Sequence.c122_sys_time", "Gul14.Date.Sequence.c122_local_time", "Gul14.Date.Sequence.c122_date", "Gul14.Date.Sequence.c122_duration", "Gul14.Date.Sequence.c122_file"], "note": "The years and formats are those for which C92 is proved (quantifier of the property); conversions to names are not included here. c122_file: the loop until failure reads exactly the values that were written."},
{"property": "C123", "status": "partial", "theorems": ["Gul14.Date.Out.c123_state", "Gul14.Date.Out.c123_state_times", "Gul14.Date.Out.c123_calendar_partial", "Gul14.Date.Out.c123_weekday_partial", "Gul14.Date.Out.c123_time_of_day_partial", "Gul14.Date.Out.c123_sys_time_partial", "Gul14.Date.Out.c123_date_any_stream", "Gul14.Date.Out.c123_field_any_stream", "Gul14.Date.Out.c123_width_partial", "Gul14.Date.Out.c123_to_stream", "Gul14.Date.Out.c123_flags_violated", "Gul14.Date.Out.c123_width_violated"], "note": "The state but for the width is restored in all cases (c123_state, c123_state_times), by to_stream completely (c123_to_stream). The text is independent of the state for complete dates, years and days on every stream (c123_date_any_stream, c123_field_any_stream), for all calendar classes and weekdays on streams without width that write integers in base ten (c123_calendar_partial, c123_weekday_partial), for times also without showpos (c123_time_of_day_partial, c123_sys_time_partial). The rest is false: c123_flags_violated (hours and minutes in hexadecimal), c123_width_violated (a width is ignored or pads one piece); it holds for months, weekdays and durations (c123_width_partial)."},
{"property": "C124", "status": "partial", "theorems": ["Gul14.Opt.Members.c124_compiles", "Gul14.Opt.Members.c124_exceptions", "Gul14.Opt.Members.c124_noexcept_kept", "Gul14.Opt.Members.c124_noexcept_given", "Gul14.Opt.Members.c124_destructor", "Gul14.Opt.Members.c124_traits_partial", "Gul14.Opt.Members.c124_traits_violated"], "note": "Which operations compile, which exceptions leave them, and when they are noexcept is proved for all types and all states. The claim about type traits is false (c124_traits_violated): the copy and move operations are user-provided and unconstrained. The rules of C++14 for special member functions and noexcept are part of the model; destructors are taken not to throw. Values and lifetimes are C34."},
{"property": "C125", "status": "partial", "theorems": ["Gul14.Statistics.Range.c125_container", "Gul14.Statistics.Range.c125_range", "Gul14.Statistics.Range.c125_compiles", "Gul14.Statistics.Range.c125_remove_lvalue", "Gul14.Statistics.Range.c125_remove_rvalue", "Gul14.Statistics.Range.c125_remove_range_violated", "Gul14.Statistics.Range.c125_remove_range_partial", "Gul14.Statistics.Range.c125_remove_rvalue_violated"], "note": "Results proved for all functions; remove_outliers with two iterators never compiles (c125_remove_range_violated), and with constant rvalues and rvalues without erase() (c125_remove_rvalue_violated). The values themselves are those of C45 - C48."},
{"property": "C126", "status": "partial", "theorems": ["Gul14.Pool.AddTask.c126_with_pool", "Gul14.Pool.AddTask.c126_without_arguments_partial", "Gul14.Pool.AddTask.c126_sound", "Gul14.Pool.AddTask.c126_rejected", "Gul14.Pool.AddTask.c126_mutable_violated", "Gul14.Pool.AddTask.c126_reference_violated", "Gul14.Pool.AddTask.c126_both_violated", "Gul14.Pool.AddTask.c126_exactly"], "note": "Proved for functions that take the pool, and for functions without arguments that can be called on a constant object and return void or an object; every documented call that compiles does what is promised (c126_sound). Rejected although documented: mutable closures and functions returning references without arguments, objects that can be called both ways (three theorems _violated)."},
{"property": "C127", "status": "partial", "theorems": ["Gul14.SmallVector.Iterators.c127_container_range", "Gul14.SmallVector.Iterators.c127_istream_violated", "Gul14.SmallVector.Iterators.c127_istreambuf_violated", "Gul14.SmallVector.Iterators.c127_single_pass_partial", "Gul14.SmallVector.Iterators.c127_compiles", "Gul14.SmallVector.Iterators.c127_insert_violated"], "note": "Proved for ranges of containers. For single-pass iterators the range is used up by std::distance: c127_istream_violated, c127_istreambuf_violated; insert needs random access iterators: c127_insert_violated."},
{"property": "C128", "status": "partial", "theorems": ["Gul14.Text.CatTypes.c128_integers", "Gul14.Text.CatTypes.c128_char", "Gul14.Text.CatTypes.c128_floats", "Gul14.Text.CatTypes.c128_long_double_violated"], "note": "Proved for all types except long double, for which the call is ambiguous (c128_long_double_violated)."},
{"property": "C129", "status": "partial", "theorems": ["Gul14.Containers.Traversal.c129_forward", "Gul14.Containers.Traversal.c129_views", "Gul14.Containers.Traversal.c129_reverse_partial", "Gul14.Containers.Traversal.c129_reverse_const_violated", "Gul14.Containers.Traversal.c129_small_vector_violated", "Gul14.Containers.Traversal.c129_sliding_buffer_violated", "Gul14.Containers.Traversal.c129_all_partial"], "note": "Proved for all pairs of functions and containers except six, which do not compile: rbegin on constant containers, crbegin on a constant SmallVector and on any SlidingBuffer (the _violated theorems). c129_all_partial covers all combinations."},
{"property": "C130", "status": "partial", "theorems": ["Gul14.Date.Keyword.c130_scan", "Gul14.Date.Keyword.c130_names", "Gul14.Date.Keyword.c130_reads", "Gul14.Date.Keyword.c130_knows", "Gul14.Date.Keyword.c130_same", "Gul14.Date.Keyword.c130_write_partial", "Gul14.Date.Keyword.c130_invalid_month_violated", "Gul14.Date.Keyword.c130_round_trip_date_partial", "Gul14.Date.Keyword.c130_round_trip_sys_time_partial", "Gul14.Date.Keyword.c130_accepted_date_partial", "Gul14.Date.Keyword.c130_accepted_sys_time_partial", "Gul14.Date.Keyword.c130_accepted_local_time_partial"], "note": "Reading keywords is proved for all tables and inputs (c130_scan, c130_names). Formatting is proved for valid months; the full name of an invalid one is read from outside of the table (c130_invalid_month_violated). Round trip and meaning of accepted texts for the formats of C92 and C93, without any assumption on a locale."},
{"property": "C131", "status": "proved", "theorems": ["Gul14.Var.Dispatch.c131_compiles", "Gul14.Var.Dispatch.c131_table", "Gul14.Var.Dispatch.c131_same", "Gul14.Var.Dispatch.c131_compare"], "note": "c131_compiles for both ways of dispatching, c131_table and c131_same for visit with tables, c131_compare for comparisons."},
{"property": "C132", "status": "partial", "theorems": ["Gul14.Traits.c132_invoke", "Gul14.Traits.c132_is_invocable_partial", "Gul14.Traits.c132_is_invocable_r_partial", "Gul14.Traits.c132_void_violated", "Gul14.Traits.c132_adl_violated"], "note": "invoke itself is proved in full (c132_invoke). is_invocable and invoke_result are proved if no other function invoke is found by argument-dependent lookup, is_invocable_r for types other than void; the other cases are violated (c132_adl_violated, c132_void_violated)."},
{"property": "C133", "status": "partial", "theorems": ["Gul14.Swap.c133_variant", "Gul14.Swap.c133_expected_trait_partial", "Gul14.Swap.c133_expected_nothrow_trait_partial", "Gul14.Swap.c133_array_violated", "Gul14.Swap.c133_member_partial", "Gul14.Swap.c133_member_sound", "Gul14.Swap.c133_compiles_partial", "Gul14.Swap.c133_noexcept_partial", "Gul14.Swap.c133_throws_exactly", "Gul14.Swap.c133_noexcept_violated", "Gul14.Swap.c133_own_swap_violated", "Gul14.Swap.c133_std_types_violated", "Gul14.Swap.c133_void_violated", "Gul14.Swap.c133_hard_error_violated"], "note": "Variant and optional are as in the standard. The trait of expected and the conditions of its swap are characterised exactly for all types; they differ from the standard for void, for types that rely on std::swap through an association with namespace std, and for types with a swap of their own (c133_void_violated, c133_std_types_violated, c133_own_swap_violated, c133_noexcept_violated, c133_hard_error_violated, c133_array_violated). Name lookup and overload resolution are part of the model."},
{"property": "C134", "status": "partial", "theorems": ["Gul14.Conv.c134_value", "Gul14.Conv.c134_error_partial", "Gul14.Conv.c134_error_violated", "Gul14.Conv.c134_error_const", "Gul14.Conv.c134_expected_partial", "Gul14.Conv.c134_wraps", "Gul14.Conv.c134_bool_violated", "Gul14.Conv.c134_same", "Gul14.Conv.c134_assign_value", "Gul14.Conv.c134_assign_error_partial", "Gul14.Conv.c134_assign_error_violated", "Gul14.Conv.c134_unexpected_partial", "Gul14.Conv.c134_unexpected_violated"], "note": "Construction and assignment are characterised for all types, relations between types and value categories. The claim fails for expected<bool, E> (c134_bool_violated), for value or error types that can be made from an unexpected (c134_error_violated, c134_unexpected_violated) and for assignment of errors of another type (c134_assign_error_violated). Overload resolution is part of the model; T is not void; conversion operators of the argument to expected are not modelled."},
{"property": "C135", "status": "partial", "theorems": ["Gul14.Date.FloatDur.c135_to_integer", "Gul14.Date.FloatDur.c135_to_float", "Gul14.Date.FloatDur.c135_same_unit", "Gul14.Date.FloatDur.c135_finer", "Gul14.Date.FloatDur.c135_trunc", "Gul14.Date.FloatDur.c135_undefined", "Gul14.Date.FloatDur.c135_finer_violated"], "note": "Exact for the same and longer units for all counts with |d| + N < 2^p; to shorter units floor and ceil are those of the rounded product and can be on the wrong side of the exact one (c135_finer_violated). Zeros are not distinguished. Both counts have the same floating-point format, or the new one is an integer; the ratio of the units or its inverse is an integer."},
{"property": "C136", "status": "partial", "theorems": ["Gul14.Date.UnitRatio.c136_ratio", "Gul14.Date.UnitRatio.c136_trunc_partial", "Gul14.Date.UnitRatio.c136_trunc_violated"], "note": "The ratio: all units. trunc: exact if the ratio fits into 64 bits, or if one of the units is a whole number of seconds; otherwise it can be wrong (c136_trunc_violated). Counts of 64 bits; overflow of the product in duration_cast is undefined and excluded."},
{"property": "C137", "status": "partial", "theorems": ["Gul14.Date.FloatTime.c137_parts", "Gul14.Date.FloatTime.c137_conventional", "Gul14.Date.FloatTime.c137_undefined", "Gul14.Date.FloatTime.c137_text_partial", "Gul14.Date.FloatTime.c137_text_violated"], "note": "Splitting, to_duration and in_conventional_range: all numbers with |d| + 1 h < 2^p units and |d| < 2^63. Text: for durations counted in seconds on a stream without format flags; it is wrong in the last half microsecond before a full minute or the tenth second (c137_text_violated). Zeros are not distinguished."},
{"property": "C138", "status": "partial", "theorems": ["Gul14.ThreadPool.HandleValues.c138_unique", "Gul14.ThreadPool.HandleValues.c138_empty", "Gul14.ThreadPool.HandleValues.c138_result", "Gul14.ThreadPool.HandleValues.c138_once", "Gul14.ThreadPool.HandleValues.c138_is_complete", "Gul14.ThreadPool.HandleValues.c138_state", "Gul14.ThreadPool.HandleValues.c138_cancel", "Gul14.ThreadPool.HandleValues.c138_cancel_violated"], "note": "All parts except the last one, for all histories; cancel() loses the result whatever it answers (c138_cancel_violated). Assignment of a handle to itself is not modelled; calls on the same handle by several threads at once are not allowed for std::future and are not modelled."},
{"property": "C139", "status": "partial", "theorems": ["Gul14.Hexdump.Calls.c139_range_partial", "Gul14.Hexdump.Calls.c139_container_partial", "Gul14.Hexdump.Calls.c139_only", "Gul14.Hexdump.Calls.c139_bool_violated", "Gul14.Hexdump.Calls.c139_member_violated", "Gul14.Hexdump.Calls.c139_literal_violated"], "note": "Ranges and containers of char and integers of 1 to 8 bytes with member operators; nothing else compiles (c139_only). Fails for bool (c139_bool_violated), non-member operators (c139_member_violated) and two string literals (c139_literal_violated). Types that are container and iterator at once, and output iterators with integral value types, are not covered; hexdump_stream is in C22 and C69."},
{"property": "C140", "status": "partial", "theorems": ["Gul14.OwnContent.c140_optional_assign", "Gul14.OwnContent.c140_expected_assign_partial", "Gul14.OwnContent.c140_expected_assign_violated", "Gul14.OwnContent.c140_unexpected_partial", "Gul14.OwnContent.c140_unexpected_violated", "Gul14.OwnContent.c140_variant_assign_partial", "Gul14.OwnContent.c140_variant_assign_violated", "Gul14.OwnContent.c140_emplace_partial", "Gul14.OwnContent.c140_emplace_violated", "Gul14.OwnContent.c140_sliding_buffer"], "note": "Exact for all contents and arguments: assignments of optional and insertion into a SlidingBuffer in full; those of expected and variant where the content stays the same alternative or the code makes a temporary (the _partial theorems); undefined behaviour in all other cases (the _violated theorems). Exceptions, and rvalues that refer to the own content (self-move), are not modelled. SmallVector is in C31, replace_inplace in C111."},
{"property": "C141", "status": "proved", "theorems": ["Gul14.Strings.Ins.c141_split", "Gul14.Strings.Ins.c141_split_empty_delimiter", "Gul14.Strings.Ins.c141_tokenize", "Gul14.Strings.Ins.c141_split_regex", "Gul14.Strings.Ins.c141_sequences", "Gul14.Strings.Ins.c141_set"], "note": "The inserter is any function on any state, with or without exception. The string must be shorter than npos. Which element types compile is not modelled."},
{"property": "C142", "status": "proved", "theorems": ["Gul14.Strings.JoinMem.c142_one_allocation", "Gul14.Strings.JoinMem.c142_too_long"], "note": "max_size, the capacity of an empty string and the growth of buffers are parameters. Exhausted memory (bad_alloc) is not modelled."},
{"property": "C143", "status": "partial", "theorems": ["Gul14.Hexdump.Helper.c143_owns", "Gul14.Hexdump.Helper.c143_temporary", "Gul14.Hexdump.Helper.c143_named_container", "Gul14.Hexdump.Helper.c143_dangling", "Gul14.Hexdump.Helper.c143_temporary_violated", "Gul14.Hexdump.Helper.c143_copies_partial", "Gul14.Hexdump.Helper.c143_copies_violated"], "note": "Choice of the overload, owning and referring helpers with every history. The helper cannot be copied or kept in a variable (C++14) if it refers to data: c143_copies_violated; c143_copies_partial says for which arguments it can. Temporaries of types without default constructor are not kept: c143_temporary_violated."},
{"property": "C144", "status": "proved", "theorems": ["Gul14.Text.CatMem.c144_cat", "Gul14.Text.CatMem.c144_cat_too_long", "Gul14.Text.CatMem.c144_repeat", "Gul14.Text.CatMem.c144_repeat_too_long"], "note": "The pieces are the texts that the arguments stand for; memory for the texts of numbers, which are strings of their own, is not counted. Parameters as in C142."}
]}
