{"claims": [
{"property": "C01", "status": "proved", "theorems": ["Sol.Props.C01_index_codec_roundtrip", "Sol.Props.C01_code_format", "Sol.Props.C01_code_length"], "note": ""},
{"property": "C02", "status": "proved", "theorems": ["Sol.Props.C02_binary_roundtrip"], "note": ""},
{"property": "C03", "status": "partial", "theorems": ["Sol.Props.C03_cut_delivers_complete_records_partial", "Sol.Props.C03_cut_in_length_field", "Sol.Props.C03_is_violated"], "note": "The code violates the property for cuts inside the length field (binary_reader.cc:35); proved for all other cuts."},
{"property": "C04", "status": "partial", "theorems": ["Sol.Props.C04_decode_defined_iff", "Sol.Props.C04_truncated_code_reads_out_of_bounds", "Sol.Props.C04_overlong_code_undefined_shift", "Sol.Props.C04_delivered_point_is_parallel"], "note": "The decoder has no bounds check: the safe codes are characterised exactly, unsafe ones exhibited."},
{"property": "C05", "status": "proved", "theorems": ["Sol.Props.C05_parse_stays_in_line"], "note": ""},
{"property": "C06", "status": "partial", "theorems": ["Sol.Props.C06_index_parses", "Sol.Props.C06_label_parses_partial", "Sol.Props.C06_is_violated", "Sol.Props.C06_real_label_rejected"], "note": "Signed overflow for the 48 largest label magnitudes; proved for all indexes and all other labels."},
{"property": "C07", "status": "proved", "theorems": ["Sol.Props.C07_value_parses"], "note": "The exact decimal before its conversion to float; float rounding is not modelled."},
{"property": "C08", "status": "partial", "theorems": ["Sol.Props.C08_line_roundtrip", "Sol.Props.C08_svm_roundtrip_partial", "Sol.Props.C08_unsorted_line", "Sol.Props.C08_is_violated", "Sol.Props.C08_digits_are_lost"], "note": "Violated for indexes of 2^31 or more, non-finite values and decimals after the seventh; proved otherwise."},
{"property": "C09", "status": "partial", "theorems": ["Sol.Props.C09_accepted_lines", "Sol.Props.C09_every_line", "Sol.Props.C09_is_violated"], "note": "Sorted delivery of exactly the pairs on the line, safety and statuses proved for all lines; features without digits are accepted (violation)."},
{"property": "C10", "status": "partial", "theorems": ["Sol.Props.C10_line_roundtrip", "Sol.Props.C10_csv_roundtrip_partial", "Sol.Props.C10_zero_values_are_dropped", "Sol.Props.C10_is_violated"], "note": "Violated for index 0 and features out of order; proved otherwise."},
{"property": "C11", "status": "partial", "theorems": ["Sol.Props.C11_line_is_whole", "Sol.Props.C11_reads_all_lines_partial", "Sol.Props.C11_lines_make_the_file", "Sol.Props.C11_is_violated", "Sol.Props.C11_eighteen_passes"], "note": "Violated after many passes over a file whose last line has no newline (buffer size overflow)."},
{"property": "C12", "status": "proved", "theorems": ["Sol.Props.C12_sort_correct", "Sol.Props.C12_sort_sorted_unchanged", "Sol.Props.C12_sort_idempotent"], "note": ""},
{"property": "C13", "status": "proved", "theorems": ["Sol.Props.C13_vector_is_a_tape", "Sol.Props.C13_capacity_never_shrinks", "Sol.Props.C13_sequence_operations", "Sol.Props.C13_regrown_elements_are_old", "Sol.Props.C13_push_own_element_when_full"], "note": "Newly allocated elements are zero; elements exposed again by growing within the capacity keep their old values (C13_regrown_elements_are_old)."},
{"property": "C14", "status": "proved", "theorems": ["Sol.Props.C14_no_use_after_release", "Sol.Props.C14_released_exactly_once"], "note": "Histories with fewer than 2^31 - 1 variables."},
{"property": "C15", "status": "partial", "theorems": ["Sol.Props.C15_clone_is_an_equal_fresh_point", "Sol.Props.C15_edits_do_not_interfere", "Sol.Props.C15_copy_shares", "Sol.Props.C15_clone_of_fresh_point", "Sol.Props.C15_copy_of_fresh_point_does_not_share", "Sol.Props.C15_clone_into_shared_point", "Sol.Props.C15_is_violated"], "note": "Violated for points that never had storage: cloning them dereferences null, copying them does not share. Proved for all other points."},
{"property": "C16", "status": "proved", "theorems": ["Sol.Props.C16_dot_visits_inside_features", "Sol.Props.C16_dot_is_sum", "Sol.Props.C16_zero_weights_do_not_matter", "Sol.Props.C16_unsorted_point_reads_outside"], "note": "The sum and the appended zeros in exact arithmetic; which features are read, in which order, for any number type."},
{"property": "C17", "status": "proved", "theorems": ["Sol.Props.C17_update_changes_listed_coordinates", "Sol.Props.C17_out_of_range_features_are_ignored"], "note": ""},
{"property": "C18", "status": "proved", "theorems": ["Sol.Props.C18_truncations_compose", "Sol.Props.C18_truncation_shrinks"], "note": ""},
{"property": "C19", "status": "proved", "theorems": ["Sol.Props.C19_min_heap_keeps_the_largest", "Sol.Props.C19_max_heap_keeps_the_smallest", "Sol.Props.C19_tables_stay_inverse", "Sol.Props.C19_operations_succeed", "Sol.Props.C19_zero_capacity_reads_outside", "Sol.Props.C19_too_many_places_reads_outside"], "note": "Order facts over any linear order; the table facts for any comparison (NaN included) and values changing between operations. The last two theorems show that 1 <= K <= N is necessary. Fewer than 2^31 places (no wrap-around of 2*i+1)."},
{"property": "C20", "status": "partial", "theorems": ["Sol.Props.C20_first_in_first_out_partial", "Sol.Props.C20_removed_is_prefix_partial", "Sol.Props.C20_is_violated"], "note": "For every schedule, any number of threads, every capacity and spurious wake-ups, with single and bulk calls; missing: the bulk Dequeue with force, for which the property is false (C20_is_violated; the inner wait at block_queue.h:152 is not in a loop)."},
{"property": "C21", "status": "partial", "theorems": ["Sol.Props.C21_bounds_and_exclusion_partial", "Sol.Props.C21_slots_partial", "Sol.Props.C21_is_violated"], "note": "As C20: all calls but the forced bulk Dequeue, for which elem_num_ becomes -1 (C21_is_violated)."},
{"property": "C22", "status": "proved", "theorems": ["Sol.Props.C22_someone_is_awake", "Sol.Props.C22_awake_threads_move", "Sol.Props.C22_steps_end", "Sol.Props.C22_no_lost_wakeup", "Sol.Props.C22_bulk_of_zero_loses_wakeup"], "note": "Also covers bulk Enqueue and unforced bulk Dequeue of at least one element; a bulk Dequeue of zero elements loses a wake-up (last theorem)."},
{"property": "C23", "status": "proved", "theorems": ["Sol.Props.C23_delivered_in_order", "Sol.Props.C23_null_after_everything"], "note": "Every interleaving of caller and reading threads, files added at any time between calls of Next; the two queues are atomic (C20-C22)."},
{"property": "C24", "status": "proved", "theorems": ["Sol.Props.C24_never_blocked", "Sol.Props.C24_schedules_end", "Sol.Props.C24_null_again", "Sol.Props.C24_batch_size", "Sol.Props.C23_null_after_everything"], "note": ""},
{"property": "C25", "status": "partial", "theorems": ["Sol.Props.C25_one_way_to_block_partial", "Sol.Props.C25_no_reader_running_partial", "Sol.Props.C25_is_violated"], "note": "False for the code: a reading thread can take the last free batch between the size test and Dequeue in the destructor, and both threads wait for ever (C25_is_violated). Proved: every schedule is finite, that race is the only way to block, and destruction finishes before the first Next and after Next returned null."},
{"property": "C26", "status": "partial", "theorems": ["Sol.Props.C26_reported_loss_partial", "Sol.Props.C26_nonnegative", "Sol.Props.C26_zero_with_margin_binary", "Sol.Props.C26_zero_with_margin_multi", "Sol.Props.C26_instance", "Sol.Props.C26_is_violated", "Sol.Props.C26_uniform_logistic_is_violated"], "note": "Consistency of the two entry points for any number type except for the uniform hinge loss, where it is false (C26_is_violated: always 0); non-negativity and zero loss in exact arithmetic; the uniform logistic loss is NaN in float arithmetic when the true class is ahead (C26_uniform_logistic_is_violated)."},
{"property": "C27", "status": "partial", "theorems": ["Sol.Props.C27_subgradient_binary", "Sol.Props.C27_subgradient_logistic_partial", "Sol.Props.C27_subgradient_maxHinge", "Sol.Props.C27_subgradient_maxLogistic_partial", "Sol.Props.C27_maxHinge_stale", "Sol.Props.C27_is_violated"], "note": "Exact for hinge, max-score hinge (positive loss) and square; for the logistic losses up to exp(-100), because the cut-offs at 100 make the code's function not convex (C27_is_violated)."},
{"property": "C28", "status": "proved", "theorems": ["Sol.Props.C28_gradient_shape", "Sol.Props.C28_shift_invariant"], "note": "Exact arithmetic; scores above -FLT_MAX; for the uniform losses at least one wrong class not below the true class (their divisor is 0 otherwise, see C26)."},
{"property": "C29", "status": "partial", "theorems": ["Sol.Props.C29_counters", "Sol.Props.C29_rate_partial", "Sol.Props.C29_hypotheses", "Sol.Props.C29_instance", "Sol.Props.C29_is_violated", "Sol.Props.C54_pet_partial", "Sol.Props.C54_fofs_partial", "Sol.Props.C54_sofs_partial", "Sol.Props.C54_adaFobosOfs_partial", "Sol.Props.C54_adaRdaOfs_partial", "Sol.Props.C54_selection_instance"], "note": "All algorithms (the feature-selection ones by the C54 theorems). Counters for any number type; the rate in exact arithmetic once there was an example; on an empty data set the rate is NaN (C29_is_violated)."},
{"property": "C30", "status": "partial", "theorems": ["Sol.Props.C30_no_update_partial", "Sol.Props.C30_rule", "Sol.Props.C30_instance", "Sol.Props.C30_is_violated"], "note": "For the eleven algorithms that change weights in Update only; false for FOBOS-L1 with active learning (C30_is_violated)."},
{"property": "C31", "status": "proved", "theorems": ["Sol.Props.C31_growth", "Sol.Props.C31_shape", "Sol.Props.C31_instance"], "note": "Unchanged scores use 0*y=0 and v+0=v (exact arithmetic; for floats: finite feature values)."},
{"property": "C54", "status": "partial", "theorems": ["Sol.Props.C54_safe_partial", "Sol.Props.C54_pet_partial", "Sol.Props.C54_fofs_partial", "Sol.Props.C54_sofs_partial", "Sol.Props.C54_adaFobosOfs_partial", "Sol.Props.C54_adaRdaOfs_partial", "Sol.Props.C29_hypotheses", "Sol.Props.C54_selection_instance", "Sol.Props.C54_is_violated", "Sol.Props.C54_label_violated", "Sol.Props.C54_zero_violated"], "note": "All algorithms; feature selection after BeginTrain with a budget, features from 1; other algorithms for models whose dimension comes from data. False when the dimension is set larger than the data (FOBOS-L1), labels leave the class range, or a second-order feature-selection algorithm meets feature 0."},
{"property": "C32", "status": "proved", "theorems": ["Sol.Props.C32_mistake_bound", "Sol.Props.C32_mistake_bound_multi", "Sol.Props.C32_errors_are_updates", "Sol.Props.C32_instance"], "note": "Exact arithmetic over any ordered field; binary (R/g)^2 and multi-class 2(R/g)^2."},
{"property": "C33", "status": "partial", "theorems": ["Sol.Props.C33_pa_reaches_margin", "Sol.Props.C33_pa_moves_least", "Sol.Props.C33_pa1_bounded", "Sol.Props.C33_pa1_is_pa", "Sol.Props.C33_pa2_moves_less", "Sol.Props.C33_pa_multi_partial", "Sol.Props.C33_instance", "Sol.Props.C33_instance_variants", "Sol.Props.C33_is_violated"], "note": "Binary hinge loss: proved in full. Several classes: the margin is reached against the strongest rival only; the loss can stay positive (C33_is_violated)."},
{"property": "C34", "status": "partial", "theorems": ["Sol.Props.C34_finite_step_partial", "Sol.Props.C34_pa1_partial", "Sol.Props.C34_ogd_partial", "Sol.Props.C34_only_bias_partial", "Sol.Props.C34_instance", "Sol.Props.C34_is_violated"], "note": "False for PA: the bias becomes NaN (C34_is_violated). Holds in binary32 for PA-I and OGD; for PA all weights but the bias are kept."},
{"property": "C35", "status": "partial", "theorems": ["Sol.Props.C35_lazy_is_eager_partial", "Sol.Props.C35_same_scores", "Sol.Props.C35_instance", "Sol.Props.C35_is_violated"], "note": "All predictions, updates and feature weights agree on every stream. The bias does not: EndTrain shrinks it twice (C35_is_violated)."},
{"property": "C36", "status": "partial", "theorems": ["Sol.Props.C36_first_class_partial", "Sol.Props.C36_is_violated"], "note": "Holds for the first class (so for binary models); every other class is never truncated."},
{"property": "C37", "status": "proved", "theorems": ["Sol.Props.C37_pet", "Sol.Props.C37_fofs", "Sol.Props.C37_sofs", "Sol.Props.C37_adaFobosOfs", "Sol.Props.C37_adaRdaOfs", "Sol.Props.C37_hypotheses", "Sol.Props.C37_instance", "Sol.Props.C37_instance_second_order"], "note": "From a model without feature weights; any arithmetic (also NaN). Also: no example and no evaluation fails."},
{"property": "C55", "status": "partial", "theorems": ["Sol.Props.C55_pet_partial", "Sol.Props.C55_fofs_partial", "Sol.Props.C54_sofs_partial", "Sol.Props.C54_adaFobosOfs_partial", "Sol.Props.C54_adaRdaOfs_partial", "Sol.Props.C55_instance", "Sol.Props.C54_selection_instance", "Sol.Props.C55_is_violated"], "note": "Holds for PET and FOFS. For the others: at most B of the features without weight in the loaded model get one (C54 theorems). False for SOFS and AdaFOBOS-OFS (and AdaRDA-OFS, same BeginTrain)."},
{"property": "C38", "status": "partial", "theorems": ["Sol.Props.C38_arow_partial", "Sol.Props.C38_sofs_partial", "Sol.Props.C38_cw_partial", "Sol.Props.C38_eccw_partial", "Sol.Props.C38_hypotheses", "Sol.Props.C38_instance", "Sol.Props.C38_instance_cw", "Sol.Props.C38_is_violated", "Sol.Props.C38_underflow_is_violated"], "note": "Proved for every stream and every number of classes for AROW and SOFS (r > 0) and CW (phi > 0, a > 0, real square root); for ECCW only with two classes, no bias and examples of norm at most 1/sqrt(a). False as stated: r is not checked (negative r makes variances grow), and ECCW uses phi*v in place of phi*sqrt(v) as its margin (eccw.cc:81), so with default parameters a repeated example raises the variance and moves the weight backwards. With rounding, CW produces NaN when v underflows to zero."},
{"property": "C39", "status": "proved", "theorems": ["Sol.Props.C39_adaFobos", "Sol.Props.C39_adaFobosL1", "Sol.Props.C39_adaRda", "Sol.Props.C39_adaRdaL1", "Sol.Props.C39_adaFobosOfs", "Sol.Props.C39_adaRdaOfs", "Sol.Props.C39_hypotheses", "Sol.Props.C39_instance"], "note": "Over the reals with the real square root; also for the L1 and feature-selecting variants. Number 0 of a scale vector belongs to the bias and changes with every update."},
{"property": "C40", "status": "proved", "theorems": ["Sol.Props.C40_alma2", "Sol.Props.C40_fofs", "Sol.Props.C40_hypotheses", "Sol.Props.C40_instance"], "note": "Over the reals, from weights in the ball (a new model, or for FOFS any model loaded from a run). FOFS needs lambda > 0: for lambda = 0 there is no bound. norm_coeff_ and momentum_ are computed in BeginTrain, so the bound is the one for the lambda and eta of that time."},
{"property": "C41", "status": "proved", "theorems": ["Sol.Props.C41_gradient_sum", "Sol.Props.C41_order", "Sol.Props.C41_evaluation", "Sol.Props.C41_hypotheses", "Sol.Props.C41_instance"], "note": "Exact arithmetic, every loss, any number of classes, from a model with zero sums. The order of the updates is irrelevant for the sums and hence for the final weights; which examples cause updates may of course depend on the order."},
{"property": "C42", "status": "partial", "theorems": ["Sol.Props.C42_idle_partial", "Sol.Props.C42_averaging_partial", "Sol.Props.C42_adaRda_partial", "Sol.Props.C42_hypotheses", "Sol.Props.C42_instance", "Sol.Props.C42_is_violated"], "note": "Holds for the algorithms with an empty EndTrain (14), for RDA, RDA_L1, ERDA_L1 and AdaRDA_L1, and for AdaRDA without a bias. False for FOBOS_L1, STG, AdaFOBOS_L1, AdaRDA and SOP with a bias, and AdaRDA_OFS."},
{"property": "C43", "status": "proved", "theorems": ["Sol.Props.C43_calibration", "Sol.Props.C43_label_set", "Sol.Props.C43_first_best", "Sol.Props.C43_first_best_float", "Sol.Props.C43_instance"], "note": "The label set holds in any arithmetic; the first-best statement over linear orders and for binary32 scores without NaN (with NaN there is no highest score)."},
{"property": "C44", "status": "partial", "theorems": ["Sol.Props.C44_filter_partial", "Sol.Props.C44_no_list", "Sol.Props.C44_scores_partial", "Sol.Props.C44_hypotheses", "Sol.Props.C44_instance", "Sol.Props.C44_is_violated"], "note": "Every list with at least one index in 1..2^31-1, read from text; scores in exact arithmetic. False for lists without any index (null dereference), and with normalisation when all listed features are 0: an unlisted feature then turns the score into NaN."},
{"property": "C45", "status": "proved", "theorems": ["Sol.Props.C45_l1", "Sol.Props.C45_l2", "Sol.Props.C45_signs", "Sol.Props.C45_instance"], "note": "L1 over every ordered field, L2 over the reals."},
{"property": "C49", "status": "partial", "theorems": ["Sol.Props.C49_split_partial", "Sol.Props.C49_equal_sizes", "Sol.Props.C49_prefix", "Sol.Props.C49_instance", "Sol.Props.C49_hypotheses", "Sol.Props.C49_is_violated"], "note": "Proved for up to 2^24 points and every number of folds (includes a proof that single-precision rounding of n/k never loses a point there). False for 2^24+1 points in one fold."},
{"property": "C50", "status": "partial", "theorems": ["Sol.Props.C50_shuffle", "Sol.Props.C50_convert", "Sol.Props.C50_binarise", "Sol.Props.C50_concat", "Sol.Props.C50_dimension", "Sol.Props.C50_csv_partial", "Sol.Props.C50_svm_partial", "Sol.Props.C50_bin", "Sol.Props.C50_hypotheses", "Sol.Props.C50_instance", "Sol.Props.C50_is_violated"], "note": "End to end from the files read by the iterator (any schedule) to the files read back. Text formats: for points that the formats can express (see C08, C10). False for csv when the features of a point are not sorted."},
{"property": "C51", "status": "partial", "theorems": ["Sol.Props.C51_counts_partial", "Sol.Props.C51_sorted", "Sol.Props.C51_instance", "Sol.Props.C51_is_violated"], "note": "For points whose last index is the largest and not 2^32-1 (all sorted points). False without any feature (largest index 2^64-1) and for unsorted points (write outside the array)."},
{"property": "C52", "status": "partial", "theorems": ["Sol.Props.C52_split", "Sol.Props.C52_split_join", "Sol.Props.C52_strip", "Sol.Props.C52_lower_partial", "Sol.Props.C52_lookup", "Sol.Props.C52_duplicate", "Sol.Props.C52_library", "Sol.Props.C52_instance_split", "Sol.Props.C52_instance_strip", "Sol.Props.C52_instance_lower", "Sol.Props.C52_instance_library", "Sol.Props.C52_instance_duplicate", "Sol.Props.C52_is_violated"], "note": "Splitting for every string; case and lookup for ASCII text, and for the library's own registrations in every order of initialisation. For bytes above 127 tolower gets a negative argument, which is undefined."},
{"property": "C53", "status": "partial", "theorems": ["Sol.Props.C53_dense_path", "Sol.Props.C53_csr_path", "Sol.Props.C53_dense_partial", "Sol.Props.C53_csr_stored", "Sol.Props.C53_csr_partial", "Sol.Props.C53_empty", "Sol.Props.C53_instance_dense", "Sol.Props.C53_instance_dense_points", "Sol.Props.C53_instance_csr", "Sol.Props.C53_instance_path", "Sol.Props.C53_is_violated"], "note": "Paths for all addresses and sizes. Dense matrices whose row offsets fit in an int; sparse ones without stored zeros (otherwise exactly the stored entries are delivered). False for larger dense matrices (int overflow) and stored zeros."},
{"property": "C48", "status": "partial", "theorems": ["Sol.Props.C48_unchanged_partial", "Sol.Props.C48_text_partial", "Sol.Props.C48_confined_partial", "Sol.Props.C48_retry_partial", "Sol.Props.C48_instance", "Sol.Props.C48_instance_multi", "Sol.Props.C48_instance_all", "Sol.Props.C48_is_violated"], "note": "For every model class, parameter name and text: a rejected call changes at most the variable of that parameter (a later accepted call repairs it), and nothing for parameters that are checked before they are stored or for text without a number. False for bias_eta, loss, norm, exp_show and others stored before the check."},
{"property": "C47", "status": "partial", "theorems": ["Sol.Props.C47_ends_iff_partial", "Sol.Props.C47_load_partial", "Sol.Props.C47_saved_partial", "Sol.Props.C47_instance", "Sol.Props.C47_is_violated"], "note": "Exactly which files end the loop, for every text, and every file as Save writes it; C47_load_partial says the same of the whole of Load, with the JSON reader and all settings. False: a file that ends before the line 'model parameters:' keeps Load in its loop for ever."},
{"property": "C56", "status": "partial", "theorems": ["Sol.Props.C56_others", "Sol.Props.C56_real", "Sol.Props.C56_int", "Sol.Props.C56_text", "Sol.Props.C56_size_partial", "Sol.Props.C56_weights", "Sol.Props.C56_instance", "Sol.Props.C56_instance_all", "Sol.Props.C56_is_violated"], "note": "Every class, state, name and text: nothing else changes, and the number at the start of the text is reported. False for a smaller dimension (ignored), a negative B of FOFS (stored modulo 2^32), text behind a number (ignored), lazy_update other than true, and active_smoothness below 1 (not reported)."},
{"property": "C57", "status": "partial", "theorems": ["Sol.Props.C57_written_partial", "Sol.Props.C57_exact_partial", "Sol.Props.C57_instance", "Sol.Props.C57_instance_bytes", "Sol.Props.C57_is_violated"], "note": "Every value with names in order (as a map keeps them), integers of 64 bits, finite or NaN reals that are float values, any strings, nested at most 1000 deep; arrays are not written by the library. False for infinities."},
{"property": "C58", "status": "partial", "theorems": ["Sol.Props.C58_ends_partial", "Sol.Props.C58_reads_partial", "Sol.Props.C58_unambiguous_partial", "Sol.Props.C58_instance", "Sol.Props.C58_instance_texts", "Sol.Props.C58_is_violated"], "note": "The reader ends on every text. Every JSON text (grammar in Spec/Json, numbers within the range of double) nested at most 1000 deep is read to its value. False: deeper nesting throws, too large numbers are refused, some texts that are not JSON are accepted."},
{"property": "C46", "status": "partial", "theorems": ["Sol.Props.C46_loads_partial", "Sol.Props.C46_reached_partial", "Sol.Props.C46_exact_partial", "Sol.Props.C46_scores_partial", "Sol.Props.C46_new_partial", "Sol.Props.C46_text_partial", "Sol.Props.C46_file_partial", "Sol.Props.C46_again_partial", "Sol.Props.C46_instance", "Sol.Props.C46_text_instance", "Sol.Props.C46_again_instance", "Sol.Props.C46_instance_all", "Sol.Props.C46_is_violated"], "note": "Every model state reached by accepted parameters and training, with finite weights and ordinary (normal or zero) settings: loaded with the same class, dimension and settings, every number as printed with six digits; exact scores move by at most a stated slack. C46_text_partial and C46_file_partial speak of the text of the file, through the modelled JSON writer and reader. C46_again_partial: the file of the loaded model has the same text, so loading that gives the very same model. False: cancelling weights, infinite weights, infinite or barely normal settings, FOFS without B, states after a rejected parameter, active_smoothness below 1."},
{"property": "C59", "status": "partial", "theorems": ["Sol.Props.C59_reads_partial", "Sol.Props.C59_only_partial", "Sol.Props.C59_unambiguous", "Sol.Props.C59_tables", "Sol.Props.C59_runs_partial", "Sol.Props.C59_instance", "Sol.Props.C59_says_instance", "Sol.Props.C59_instance_refused", "Sol.Props.C59_is_violated"], "note": "Every table with distinct names and every argument list: accepted exactly if it is in the grammar (Spec/Cmdline) and the required options are given, with exactly the values that the grammar gives. False for a lone minus sign, which is dropped."},
{"property": "C60", "status": "partial", "theorems": ["Sol.Props.C60_train_partial", "Sol.Props.C60_train_only_partial", "Sol.Props.C60_train_status", "Sol.Props.C60_train_errors", "Sol.Props.C60_test_partial", "Sol.Props.C60_test_only_partial", "Sol.Props.C60_instance", "Sol.Props.C60_instance_model", "Sol.Props.C60_instance_refused", "Sol.Props.C60_is_violated"], "note": "Every command line and file system: a job is done exactly if it is asked for, with the parameters in order (each name and value up to its first blank). False: status 0 although the output could not be written; blanks inside values and doubled equal signs; --dim is ignored."},
{"property": "C61", "status": "proved", "theorems": ["Sol.Props.C61_train", "Sol.Props.C61_test", "Sol.Props.C61_plain", "Sol.Props.C61_two_calls", "Sol.Props.C62_instance"], "note": "For every iterator run that ended (C24: every run does). C61_plain links Train to the plain loop of C29-C42; C61_two_calls: for the algorithms whose EndTrain does nothing, two calls are one."},
{"property": "C62", "status": "proved", "theorems": ["Sol.Props.C62_reports", "Sol.Props.C62_new", "Sol.Props.C62_test", "Sol.Props.C62_instance", "Sol.Props.C62_instance_powers", "Sol.Props.C62_instance_test", "Sol.Props.C62_hypotheses", "Sol.Props.C62_set_late"], "note": "Reports for the algorithms of C29. A displayer that is set on an already trained model reports after every example until it has caught up (C62_set_late)."},
{"property": "C63", "status": "proved", "theorems": ["Sol.Props.C63_weighted", "Sol.Props.C63_constant", "Sol.Props.C63_decreasing", "Sol.Props.C63_logistic", "Sol.Props.C63_runs", "Sol.Props.C63_instance"], "note": "Over any ordered field (logistic: the reals), so rounding is not covered. Plain updates: no lazy updates, active learning or costs. The max-score loss needs scores above the lowest float along the run, as in C26."},
{"property": "C64", "status": "proved", "theorems": ["Sol.Props.C64_pa", "Sol.Props.C64_pa1", "Sol.Props.C64_pa1_mistakes", "Sol.Props.C64_pa2", "Sol.Props.C64_mistakes", "Sol.Props.C63_runs", "Sol.Props.C64_instance"], "note": "Over any ordered field, so rounding is not covered; bias_eta 0; plain updates as in C63."},
{"property": "C65", "status": "partial", "theorems": ["Sol.Props.C65_listing", "Sol.Props.C65_again_partial", "Sol.Props.C65_same_partial", "Sol.Props.C65_status", "Sol.Props.C65_instance", "Sol.Props.C65_is_violated"], "note": "The listing for every model; copies for every state that can be saved (as in C46) and every order. False: sparse_thresh, step_show, exp_show and filter are not listed; a new FOFS lists B=0 and refuses it; an infinite parameter is listed as a text that throws across the C interface."},
{"property": "C66", "status": "partial", "theorems": ["Sol.Props.C66_train_partial", "Sol.Props.C66_test_partial", "Sol.Props.C66_only_partial", "Sol.Props.C66_status", "Sol.Props.C66_errors", "Sol.Props.C66_instance", "Sol.Props.C66_instance_refused", "Sol.Props.C66_is_violated"], "note": "Every command line and file system, as C60. False: a filter with a model that cannot be loaded dereferences a null pointer, too large numbers throw across the C interface, status 0 although the predictions could not be written, other words are ignored."},
{"property": "C67", "status": "partial", "theorems": ["Sol.Props.C67_predict", "Sol.Props.C67_rows", "Sol.Props.C67_batches", "Sol.Props.C67_score", "Sol.Props.C67_instance", "Sol.Props.C67_is_violated"], "note": "Calls and scores for every algorithm, model and data (score in exact arithmetic). False: sol_Train and sol_Test return the error rate, which c_api.h documents and lsol_c prints as the accuracy."},
{"property": "C68", "status": "proved", "theorems": ["Sol.Props.C68_regret", "Sol.Props.C68_logistic", "Sol.Props.C68_bounded", "Sol.Props.C63_runs", "Sol.Props.C68_instance"], "note": "Over the reals, so rounding is not covered; plain updates as in C63. B is any bound of the distance of the weights of the run from U (C68_bounded: there is one)."},
{"property": "C69", "status": "proved", "theorems": ["Sol.Props.C69_regret", "Sol.Props.C69_logistic", "Sol.Props.C69_bias_is_not_learnt", "Sol.Props.C69_instance"], "note": "Over the reals, so rounding is not covered; plain updates as in C63. U without bias, because AdaRDA does not learn the bias while training (C69_bias_is_not_learnt)."},
{"property": "C70", "status": "proved", "theorems": ["Sol.Props.C70_regret", "Sol.Props.C70_logarithmic", "Sol.Props.C70_logistic", "Sol.Props.C70_ends", "Sol.Props.C70_instance"], "note": "C70_regret over any ordered field, the logarithm over the reals, so rounding is not covered; plain updates as in C63. The weights are those that EndTrain would give at each point, which are the ones RDA predicts with."},
{"property": "C71", "status": "proved", "theorems": ["Sol.Props.C71_updates", "Sol.Props.C71_separable", "Sol.Props.C71_margin", "Sol.Props.C71_instance"], "note": "Over the reals, so rounding is not covered; two classes, hinge loss, bias_eta 0 or 1, no lazy updates and no costs. Active learning is allowed for the update bounds, not for the large margin."},
{"property": "C72", "status": "partial", "theorems": ["Sol.Props.C72_value_partial", "Sol.Props.C72_large", "Sol.Props.C72_printed", "Sol.Props.C72_instance", "Sol.Props.C72_is_violated"], "note": "For every powf whose result before rounding is accurate to 2^-40; relative bound plus 2^-118. False: a zero with exponent 39 or more is read as NaN; tiny values such as 1.17549e-38 come back 0.5 percent off, because the power of ten is rounded to a multiple of 2^-149; between 0.0001 and 0.01 digits after the seventh decimal are cut."},
{"property": "C73", "status": "partial", "theorems": ["Sol.Props.C73_images", "Sol.Props.C73_binary", "Sol.Props.C73_svm_partial", "Sol.Props.C73_csv_partial", "Sol.Props.C73_svm_detour_partial", "Sol.Props.C73_csv_again_partial", "Sol.Props.C73_instance_images", "Sol.Props.C73_instance", "Sol.Props.C73_is_violated", "Sol.Props.C73_rewriting_changes"], "note": "Binary files exactly (one zero, one NaN). Text: labels, indexes and whole values of at most six digits exactly, other values within the bounds of C72, and the same bytes again for values outside 0.0001 to 0.01; at most 2^24 features in a libsvm line, at most 2^25 columns. False: text has six digits, so different data sets give the same file; between 0.0001 and 0.01 writing again changes the file."},
{"property": "C74", "status": "partial", "theorems": ["Sol.Props.C74_convert_partial", "Sol.Props.C74_threshold_partial", "Sol.Props.C74_shuffle_partial", "Sol.Props.C74_split_partial", "Sol.Props.C74_concat_partial", "Sol.Props.C74_no_input", "Sol.Props.C74_no_output", "Sol.Props.C74_instance", "Sol.Props.C74_instance_more", "Sol.Props.C74_errors_are_hidden", "Sol.Props.C74_is_violated"], "note": "Data sets that the output format can hold (as C73), inputs read to their end. Success of the tools as functions; the main programs: C75. False: read errors give status 0, csv from the standard input gives only the header, type CSV uses an uninitialised dimension, splitting nothing writes no file with status 0, zero folds is undefined, concat empties its output before it finds an input missing. Failing writes are not modelled, and analyze only for refusals (its report: C75)."},
{"property": "C75", "status": "partial", "theorems": ["Sol.Props.C75_refuses", "Sol.Props.C75_converter_partial", "Sol.Props.C75_shuffle_partial", "Sol.Props.C75_split_partial", "Sol.Props.C75_concat_partial", "Sol.Props.C75_analyze_partial", "Sol.Props.exactPct_percent", "Sol.Props.C75_orders", "Sol.Props.C75_instance", "Sol.Props.C75_is_violated"], "note": "Every command line; data sets and files as in C74. The text of the percentage is a parameter, right to a little more than half of the last decimal. False: the share of unused columns is taken of one column too many, so a data set that uses every column is reported with 50 percent sparsity if it has one; without features the dimension is reported as 2^64-1."},
{"property": "C76", "status": "proved", "theorems": ["Sol.Props.C76_one_end", "Sol.Props.C76_points", "Sol.Props.C76_points_test", "Sol.Props.C76_sizes", "Sol.Props.C76_sizes_test", "Sol.Props.C78_instance"], "note": "Every command line and world of files; the random numbers of active learning, powf and exp are parameters. The data file does not change during the run."},
{"property": "C77", "status": "proved", "theorems": ["Sol.Props.C77_converted", "Sol.Props.C77_passes", "Sol.Props.C77_instance", "Sol.Props.C78_instance"], "note": "Files read to their end (a read error ends the reading, see C74). Binary files hold every point with indexes of 32 bits exactly; for text see C73."},
{"property": "C78", "status": "partial", "theorems": ["Sol.Props.C78_trains_partial", "Sol.Props.C78_algorithm_partial", "Sol.Props.C78_loads_partial", "Sol.Props.C78_loader", "Sol.Props.C78_instance", "Sol.Props.C78_is_violated"], "note": "For all 24 classes, with ascending indexes, labels that are classes, a number of features that fits its type, data that reach the dimension of a loaded FOBOS-L1 or AdaFOBOS-L1 model, and a hinge loss for cost sensitive learning; loading for finite weights and ordinary settings. False without: an exception before saving, undefined conversions and indexes, an untrained model with status 0."},
{"property": "C79", "status": "partial", "theorems": ["Sol.Props.C79_predictions", "Sol.Props.C79_after_training_partial", "Sol.Props.C79_instance"], "note": "What is written holds for every model and every data with ascending indexes; that the file of sol_train is accepted, under the conditions of C78."},
{"property": "C80", "status": "partial", "theorems": ["Sol.Props.C80_budget_partial", "Sol.Props.C80_instance", "Sol.Props.C80_is_violated"], "note": "For models without weights (new ones), under the conditions of C78. False for loaded models: SOFS with B=1 has two features after it was saved, loaded and trained further."},
{"property": "C81", "status": "partial", "theorems": ["Sol.Props.C81_sofs_partial", "Sol.Props.C81_pet_partial", "Sol.Props.C81_adaFobosOfs_partial", "Sol.Props.C81_adaRdaOfs_partial", "Sol.Props.C81_instance", "Sol.Props.C81_hypotheses", "Sol.Props.C81_is_violated"], "note": "SOFS and PET over any ordered field, the Ada variants over the reals, so rounding is not covered; sessions of training and EndTrain from a model without weights. False for FOFS, which shrinks weights without their sums and so deletes a larger weight and keeps a smaller one (in float arithmetic)."},
{"property": "C82", "status": "partial", "theorems": ["Sol.Props.C82_dense_partial", "Sol.Props.C82_assign_partial", "Sol.Props.C82_sparse_partial", "Sol.Props.C82_shapes_partial", "Sol.Props.C82_dot_partial", "Sol.Props.C82_dotSparse_partial", "Sol.Props.C82_reduce_partial", "Sol.Props.C82_reduceSparse_partial", "Sol.Props.C82_first_order", "Sol.Props.C82_confidence", "Sol.Props.C82_lazy", "Sol.Props.C82_dual", "Sol.Props.C82_sop", "Sol.Props.C82_ada", "Sol.Props.C82_select", "Sol.Props.C82_instance", "Sol.Props.C82_is_violated"], "note": "Dense operands of the destination's shape, or not empty and of other shapes; sparse vectors in ascending order and operands that reach their features. The statements of the algorithms one class at a time, whenever the model's step succeeds; the real-valued time stamps are exact by hypothesis. False: an empty operand or a short operand beside a sparse vector is read out of bounds, constructing a matrix from an expression throws, and reading an element of a constant matrix ignores the row."},
{"property": "C83", "status": "partial", "theorems": ["Sol.Props.C83_grid", "Sol.Props.C83_processes", "Sol.Props.C83_hangs", "Sol.Props.C83_task", "Sol.Props.C83_settings", "Sol.Props.C83_scores", "Sol.Props.C83_best", "Sol.Props.C83_chosen", "Sol.Props.C83_again_partial", "Sol.Props.C83_no_passes", "Sol.Props.C83_is_violated"], "note": "At least two folds, one process and one parameter to search, settings that the learner accepts, exact numbers (no NaN: empty folds). The learner itself is a parameter. False: a second call on the same object adds the old average, so worse settings are chosen; an exception in a worker, or no passes, and the main process waits for ever."},
{"property": "C84", "status": "partial", "theorems": ["Sol.Props.C84_numbers_partial", "Sol.Props.C84_convert_partial", "Sol.Props.C84_binarize_partial", "Sol.Props.C84_shuffle_partial", "Sol.Props.C84_split_partial", "Sol.Props.C84_history_partial", "Sol.Props.C84_hypotheses", "Sol.Props.C84_instance", "Sol.Props.C84_is_violated"], "note": "Every sequence of calls that name the type, with one threshold, for files that can be read and written. False: splitting without naming the type leaves old folds, which are used later; another threshold and another file of the same name get the old files; cache_path raises an exception when nothing is cached."},
{"property": "C85", "status": "partial", "theorems": ["Sol.Props.C85_one_outcome", "Sol.Props.C85_session_partial", "Sol.Props.C85_instance", "Sol.Props.C85_instance_lazy", "Sol.Props.C85_hypotheses", "Sol.Props.C85_is_violated"], "note": "One outcome for every session. The answers for files that can be read, data the class can learn from, and either a class whose EndTrain only resets a flag or training calls that follow each other and are not followed by save at once. False otherwise: save after fit (python/sol_train.py) writes weights of fobos-l1 that are not up to date; score between two fits gives another model; a refused training reports accuracy 1 and leaves its points to the next call."},
{"property": "C86", "status": "partial", "theorems": ["Sol.Props.C86_accuracy", "Sol.Props.C86_chosen_partial", "Sol.Props.C86_data_set_partial", "Sol.Props.C86_instance", "Sol.Props.C86_hypotheses", "Sol.Props.C86_is_violated"], "note": "For folds that all have points, at most 2^24, settings that are accepted and data the class can learn from (C78). The averages are exact instead of in double. False for folds without points, which the random split may make: their accuracy is not a number, and the average with it."},
{"property": "C87", "status": "partial", "theorems": ["Sol.Props.C87_order_partial", "Sol.Props.C87_refused_partial", "Sol.Props.C87_python_partial", "Sol.Props.C87_command_partial", "Sol.Props.C87_instance", "Sol.Props.C87_instance_multi", "Sol.Props.C87_instance_command", "Sol.Props.C87_is_violated"], "note": "For every class and every list of parameters no two of which are stored in the same place. False for the pairs that are: B and lambda where B is stored as lambda, t and t0, exp_show and step_show; there the order decides."},
{"property": "C88", "status": "partial", "theorems": ["Sol.Props.C88_results", "Sol.Props.C88_given_partial", "Sol.Props.C88_choice_partial", "Sol.Props.C88_train_partial", "Sol.Props.C88_instance", "Sol.Props.C88_hypotheses", "Sol.Props.C88_instance_folds", "Sol.Props.C88_is_violated"], "note": "For settings no two of which are stored in the same place, without B and lambda among the given ones, data and folds as in C86, settings that need no further file, and classes with nothing to do at the end of a training if the model is saved (C85). str, %.4f and ast.literal_eval are parameters. False: a setting that is given and searched is not varied in cross validation, and the training uses a value that was not validated; a given lambda is not in effect in cross validation; with B given and lambda searched the order of the dictionary decides; results of a search over other values are taken."},
{"property": "C89", "status": "partial", "theorems": ["Sol.Props.C89_same_file_partial", "Sol.Props.C89_instance", "Sol.Props.C89_is_violated"], "note": "For settings no two of which are stored in the same place, without the names of the constructor's own arguments, classes with nothing to do at the end of a training (C85), data that can be read and learnt from, no cross validation (C88). The executable has to be told the number of classes, which the script counts, and the normalisation, which the script always sets. False otherwise: alma2 refuses the default of the script; k=v=w is taken as k=v by the script and refused by the executable; other classes are saved before the end of the training (C85)."},
{"property": "C90", "status": "partial", "theorems": ["Sol.Props.C90_finetune_partial", "Sol.Props.C90_test_partial", "Sol.Props.C90_instance", "Sol.Props.C90_instance_test", "Sol.Props.C90_is_violated"], "note": "If reading the name of the loaded model, which lies in released storage, does no harm. Training: as in C89; the executable has to be told the normalisation that the script sets. Tests: the same labels, predictions and scores; how a script prints a score is a parameter. False: the name is read after its storage was released; fine-tuning resets the normalisation of the model."},
{"property": "C91", "status": "partial", "theorems": ["Sol.Props.C91_same_partial", "Sol.Props.C91_file", "Sol.Props.C91_session_partial", "Sol.Props.C91_unlabelled", "Sol.Props.C91_instance", "Sol.Props.C91_instance_csr", "Sol.Props.C91_hypotheses", "Sol.Props.C91_is_violated"], "note": "For matrices with rows, whose row offsets fit in an int, without stored zeros or repeated columns (C53), and with labels; sessions as in C85. False without labels: the array of zeros that stands for them is released before the reading thread starts, so every such call on a matrix with rows reads released storage."},
{"property": "C92", "status": "partial", "theorems": ["Sol.Props.C92_unchanged", "Sol.Props.C92_session_partial", "Sol.Props.C92_numbers", "Sol.Props.C92_alike", "Sol.Props.C92_instance", "Sol.Props.C92_instance_gone", "Sol.Props.C92_hypotheses", "Sol.Props.C92_is_violated"], "note": "Sessions as in C85, and some variable refers to the handler whenever training begins. A number that is due and the last is reported twice. False for handlers that nothing else refers to, as in inspect_learning(lambda ...): the class keeps the address only, and every training call then calls an object that was released."},
{"property": "C93", "status": "partial", "theorems": ["Sol.Props.C93_runs_partial", "Sol.Props.C93_curves_partial", "Sol.Props.C93_hypotheses", "Sol.Props.C93_instance", "Sol.Props.C93_instance_violated", "Sol.Props.C93_is_violated"], "note": "For algorithms whose settings are given or were found by an earlier cross validation (a first cross validation: C86 and C88 for one training), names in lower-case letters that are different, names to run again that are among them, data the classes can learn from, exact numbers; liblinear and vw are not modelled. False: an algorithm in capital letters, or a name that is not in the options, ends the experiment with a KeyError before anything is saved; kept results of fewer repetitions and the curves fail, of more and the curves show other repetitions than the table."},
{"property": "C94", "status": "partial", "theorems": ["Sol.Props.C94_convert", "Sol.Props.C94_accuracy", "Sol.Props.C94_train_test_partial", "Sol.Props.C94_instance", "Sol.Props.C94_instance_share", "Sol.Props.C94_no_features", "Sol.Props.C94_missing", "Sol.Props.C94_missing_hypotheses", "Sol.Props.C94_is_violated"], "note": "For data files in libsvm format, a shuffled file, no translated files of earlier runs, and different names of the files; the program vw is a parameter, cross validation is left out. False: a point without features stops the translation and the cut file is used from then on; translated files are kept when the data are shuffled again; a test file with the name of the training file is not read; test data with one label are shifted."},
{"property": "C95", "status": "partial", "theorems": ["Sol.Props.C95_l1", "Sol.Props.C95_l2_partial", "Sol.Props.C95_instance", "Sol.Props.C95_is_violated", "Sol.Props.C95_instance_violated"], "note": "One weight vector, rational numbers. train_test_l1 for all test data, train_test_l2 for test data with no fewer columns than the training data. False for train_test_l2 with fewer columns: it always fails."},
{"property": "C96", "status": "proved", "theorems": ["Sol.Props.C96_expected", "Sol.Props.C96_expected_multi", "Sol.Props.C96_runs", "Sol.Props.C96_instance", "Sol.Props.C96_instance_multi"], "note": "For real numbers, independent random numbers evenly from [0, 1), an untrained model; several classes: -FLT_MAX has to be below -2 n R^2 for n examples."},
{"property": "C97", "status": "partial", "theorems": ["Sol.Props.C97_mistake_bound_partial", "Sol.Props.C97_mistake_bound_multi_partial", "Sol.Props.C97_separable_partial", "Sol.Props.C97_separable_multi_partial", "Sol.Props.C97_instance", "Sol.Props.C97_instance_multi", "Sol.Props.C97_is_violated"], "note": "For real numbers, an untrained model, and linear functions without bias. False with a bias: in training the bias of the predictions is always zero, so on examples that only a function with bias separates there is no bound."},
{"property": "C98", "status": "partial", "theorems": ["Sol.Props.C98_arow_partial", "Sol.Props.C98_cw_partial", "Sol.Props.C98_eccw_partial", "Sol.Props.C98_instance_arow", "Sol.Props.C98_instance_cw", "Sol.Props.C98_instance_eccw", "Sol.Props.C98_instance_away", "Sol.Props.C98_cw_is_violated", "Sol.Props.C98_eccw_is_violated", "Sol.Props.C98_eccw_away_is_violated"], "note": "For two classes, a learning rate of the bias of 0 or 1, exact numbers (CW and ECCW: real numbers). AROW as stated. CW: predicted correctly with at most the confidence asked for, and exactly with it if one coordinate is not zero; ECCW: predicted correctly. False: with two coordinates that are not zero CW never reaches the confidence; ECCW never reaches it while the variance of the score is at most 1, and moves the margin down when the confidence was higher than asked for."},
{"property": "C99", "status": "partial", "theorems": ["Sol.Props.C99_lists_partial", "Sol.Props.C99_order", "Sol.Props.C99_option", "Sol.Props.C99_hypotheses", "Sol.Props.C99_instance", "Sol.Props.C99_instance_option", "Sol.Props.C99_is_violated"], "note": "For names of ASCII characters, and for groups in which no name has an underscore: models, losses and writers of the library. False for readers: csr_matrix is listed as csr, which creates nothing."},
{"property": "C100", "status": "partial", "theorems": ["Sol.Props.C100_given_partial", "Sol.Props.C100_train_partial", "Sol.Props.C100_hypotheses_given", "Sol.Props.C100_hypotheses", "Sol.Props.C100_instance", "Sol.Props.C100_is_violated", "Sol.Props.settles_keeps"], "note": "For settings that are different parameters of the class, well-formed files, and, if the model is saved, classes with nothing to do at the end of a training. False for others: the weights in the file have not been brought up to date, those that are tested have."},
{"property": "C101", "status": "proved", "theorems": ["Sol.Props.C101_composite", "Sol.Props.C101_logistic", "Sol.Props.C101_runs", "Sol.Props.C101_instance"], "note": "C101_composite over any ordered field, the logistic loss over the reals and up to 2 exp(-100) per example, so rounding is not covered. Constant step size (power_t 0); plain updates as in C63. The absolute weights are those of the features; the bias of the models is left out, because EndTrain shrinks it twice (C35). The max-score loss needs scores above the lowest float along the run, as in C26."},
{"property": "C102", "status": "proved", "theorems": ["Sol.Props.C102_composite", "Sol.Props.C102_root", "Sol.Props.C102_logistic", "Sol.Props.C102_runs", "Sol.Props.C102_hypotheses", "Sol.Props.C102_instance"], "note": "C102_composite over any ordered field with a positive increasing square root, C102_root and the logistic loss over the reals (the latter up to 2 exp(-100) per example), so rounding is not covered. Plain updates as in C63. The absolute weights are those of the features, without the bias. The max-score loss needs scores above the lowest float along the run, as in C26."},
{"property": "C103", "status": "partial", "theorems": ["Sol.Props.C103_rda_partial", "Sol.Props.C103_erda_partial", "Sol.Props.C103_rda_learns_partial", "Sol.Props.C103_is_violated", "Sol.Props.C103_learns_nothing", "Sol.Props.C103_runs", "Sol.Props.C103_hypotheses", "Sol.Props.C103_instance", "Sol.Props.C103_instance_logistic"], "note": "Holds for RDA and ERDA-L1 in binary32. False for RDA-L1: it divides by the number of earlier examples without the 1e-20 of the other two, so the step size of the first example is infinite, all scores are infinity times 0 = NaN, and with every loss that looks at the scores nothing is learnt from that example, whatever it is (for the logistic losses exp and log are taken to give NaN for NaN). The sign of zero is not modelled."},
{"property": "C104", "status": "partial", "theorems": ["Sol.Props.C104_share_partial", "Sol.Props.C104_ends_partial", "Sol.Props.C104_is_violated", "Sol.Props.C104_instance", "Sol.Props.C104_instance_large"], "note": "Holds for models with at least one and fewer than 2^32 weights. False otherwise: a model without features, such as a new one, reports 0/0 = NaN, and the number of weights is computed in 32 bits, so that 65536 classes with 65536 features give a division by 0 and minus infinity."},
{"property": "C105", "status": "partial", "theorems": ["Sol.Props.C105_repeated_partial", "Sol.Props.C105_only_partial", "Sol.Props.C105_close_partial", "Sol.Props.C105_is_violated", "Sol.Props.C105_hypotheses", "Sol.Props.C105_instance"], "note": "Below 2^32 the value comes back unchanged for the doubles of numbers with at most six digits behind the point and for no others; all values of the searches in experiments/opts are such; every other value up to 2^32 comes back with an error of at most a millionth. False otherwise: 2^-7 comes back as 0.007812 and 2^-21 as 0."},
{"property": "C106", "status": "proved", "theorems": ["Sol.Props.C106_points", "Sol.Props.C106_styles", "Sol.Props.C106_instance"], "note": "Coordinates are exact numbers; drawing, axes and the legend itself are those of another package."},
{"property": "C107", "status": "partial", "theorems": ["Sol.Props.C107_train_partial", "Sol.Props.C107_test_partial", "Sol.Props.C107_is_violated", "Sol.Props.C107_instance"], "note": "train leaves the model exactly when one was made and a setting without value follows accepted ones (return at lsol_c.cc:72); otherwise it releases everything. test does so unless there is a filter and the model could not be loaded: then a null pointer is used. Calls are taken to return without exceptions."}
]}
