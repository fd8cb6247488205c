{
 "claims": [
  {
   "property": "C01",
   "status": "proved",
   "theorems": [
    "Cres.C01_weight_sums_conserved",
    "Cres.C01_weight_sums_conserved_parallel",
    "Cres.C01_resampling_returns"
   ],
   "note": "One thread and all interleavings, all weights, exact arithmetic."
  },
  {
   "property": "C02",
   "status": "proved",
   "theorems": [
    "Cres.C02_cell_mean",
    "Cres.C02_cell_mean_of_return"
   ],
   "note": ""
  },
  {
   "property": "C03",
   "status": "proved",
   "theorems": [
    "Cres.C03_cell",
    "Cres.C03_radius",
    "Cres.C03_cell_any"
   ],
   "note": ""
  },
  {
   "property": "C04",
   "status": "proved",
   "theorems": [
    "Cres.C04_no_negative_weights",
    "Cres.C04_all_neighbours",
    "Cres.C04_resampler"
   ],
   "note": "Includes that the resampler returns (release builds)."
  },
  {
   "property": "C05",
   "status": "partial",
   "theorems": [
    "Cres.C05_violated",
    "Cres.C05_violated_multiweight",
    "Cres.C05_one_thread_partial",
    "Cres.C05_one_thread_no_negative_partial",
    "Cres.C05_one_thread_completes"
   ],
   "note": "False as stated: a race between building and averaging cells leaves negative weights (C05_violated). Proved for one worker thread."
  },
  {
   "property": "C06",
   "status": "partial",
   "theorems": [
    "Cres.C06_violated",
    "Cres.C06_violated_debug",
    "Cres.C06_violated_in_a_run",
    "Cres.C06_positive_ignored_partial",
    "Cres.C06_positive_ignored_parallel_partial"
   ],
   "note": "False for weight exactly 0 (a cell is made; panic in debug builds). Proved for positive weight."
  },
  {
   "property": "C07",
   "status": "proved",
   "theorems": [
    "Cres.C07_no_increase",
    "Cres.C07_no_increase_parallel"
   ],
   "note": ""
  },
  {
   "property": "C08",
   "status": "proved",
   "theorems": [
    "Cres.C08_no_deadlock",
    "Cres.C08_holders_progress",
    "Cres.C08_bounded",
    "Cres.C08_ends_finished",
    "Cres.C08_can_finish",
    "Cres.C08_no_panic"
   ],
   "note": ""
  },
  {
   "property": "C09",
   "status": "proved",
   "theorems": [
    "Cres.C09_mutual_exclusion",
    "Cres.C09_access_under_lock",
    "Cres.C09_serialisable",
    "Cres.C09_unlocked_weights",
    "Cres.C09_log_order",
    "Cres.C09_serialisable_any",
    "Cres.C09_unlocked_weights_any"
   ],
   "note": "The theorems ending in _any, and those on locking, hold for any arithmetic on weights, also if sums are rounded."
  },
  {
   "property": "C10",
   "status": "proved",
   "theorems": [
    "Cres.C10_tree_search_exact",
    "Cres.C10_tree_search_exact_seq",
    "Cres.C10_iterator_prefix",
    "Cres.C10_tree_search_exact_on"
   ],
   "note": "exact arithmetic; sorts return a sorted permutation, ties arbitrary"
  },
  {
   "property": "C100",
   "status": "proved",
   "theorems": [
    "Cres.C100_split",
    "Cres.C100_join",
    "Cres.C100_output",
    "Cres.C100_default_distance"
   ],
   "note": "For exact distances that form a metric, events with negative weight without two neighbours at the same distance, no unweighting, and no debug build with info messages (there an empty group panics, see C30). The arithmetic for weights is arbitrary."
  },
  {
   "property": "C101",
   "status": "proved",
   "theorems": [
    "Cres.C101_readable",
    "Cres.C101_fewer",
    "Cres.C101_more",
    "Cres.C101_central"
   ],
   "note": "For distances that do not depend on weights (the default distance: C90_default_distance). Reading without names gives other central weights only if a name contains a line break (see C78)."
  },
  {
   "property": "C102",
   "status": "proved",
   "theorems": [
    "Cres.C102_rejected",
    "Cres.C102_accepted",
    "Cres.C102_interfaces",
    "Cres.C102_unlimited",
    "Cres.C102_strategies",
    "Cres.C102_only_strategies",
    "Cres.C102_algorithms",
    "Cres.C102_only_algorithms"
   ],
   "note": "Options that are not a number (NaN) are left out. The options for compression and the number of threads are not in this model, see C95 for compression and C98 and C109 for threads."
  },
  {
   "property": "C103",
   "status": "proved",
   "theorems": [
    "Cres.C103_overwrite",
    "Cres.C103_again",
    "Cres.C103_one_thread"
   ],
   "note": "For runs without unweighting and weights that can be written (finite; for STRIPPER XML without rounding by the scale)."
  },
  {
   "property": "C104",
   "status": "proved",
   "theorems": [
    "Cres.C104_files",
    "Cres.C104_completes",
    "Cres.C104_conserved",
    "Cres.C104_no_increase",
    "Cres.C104_cres",
    "Cres.C104_no_negative",
    "Cres.C104_far_records",
    "Cres.C104_nothing_to_do"
   ],
   "note": "Sums in exact arithmetic. Reading and writing records by the ntuple library does not fail in the model; all input files are ntuples."
  },
  {
   "property": "C105",
   "status": "partial",
   "theorems": [
    "Cres.C105_violated",
    "Cres.C105_contents_partial",
    "Cres.C105_one_thread_partial",
    "Cres.C105_reused_partial",
    "Cres.C105_no_panic"
   ],
   "note": "False if a collector is used again and several threads create cells: each of them starts with a copy of the collector, so that earlier cells are counted once for each thread (C105_violated, C105_reused_partial). Proved for the first resampling with a new collector on any number of threads (C105_contents_partial), and for any number of resamplings on one thread each (C105_one_thread_partial). With several threads the largest cells need not be among the selected ones (C51)."
  },
  {
   "property": "C106",
   "status": "partial",
   "theorems": [
    "Cres.C106_violated",
    "Cres.C106_reported",
    "Cres.C106_reports_partial",
    "Cres.C106_one_thread_partial",
    "Cres.C106_unweighted_partial"
   ],
   "note": "False for the fraction of negative weights: if the sum of weights is negative, the fraction can increase, for example from 3/4 to 1 for weights -3 and 1 (C106_violated). Proved in exact arithmetic for all interleavings: the reported numbers are those of the files, the sum stays the same, the uncertainty does not increase, and the fraction does not increase if the sum is not negative and weights are left (C106_reports_partial); on one thread and without limit on cell sizes it ends at zero (C106_one_thread_partial). With unweighting and one weight per event, the reported numbers are those of the output files, and the sum stays the same or all events are discarded (C106_unweighted_partial)."
  },
  {
   "property": "C107",
   "status": "proved",
   "theorems": [
    "Cres.C107_messages",
    "Cres.C107_determined",
    "Cres.C107_printed"
   ],
   "note": "For the information that is printed; formatting and names of particles are not modelled."
  },
  {
   "property": "C108",
   "status": "proved",
   "theorems": [
    "Cres.C108_files",
    "Cres.C108_completes",
    "Cres.C108_conserved",
    "Cres.C108_cres",
    "Cres.C108_no_negative",
    "Cres.C108_far",
    "Cres.C108_nothing_to_do",
    "Cres.C108_bounds"
   ],
   "note": "The library for ROOT files is assumed to read what it has written and to write files that are recognised. Text files as in C68: records as written by event generators. Exact arithmetic for sums."
  },
  {
   "property": "C109",
   "status": "proved",
   "theorems": [
    "Cres.C109_determined",
    "Cres.C109_reordered",
    "Cres.C109_default_distance"
   ],
   "note": "Exact arithmetic for weights and distances; for all interleavings. With events in a different order the sums of weights in a cell are the same only in exact arithmetic."
  },
  {
   "property": "C11",
   "status": "proved",
   "theorems": [
    "Cres.C11_naive_search_exact"
   ],
   "note": "any distance function"
  },
  {
   "property": "C110",
   "status": "partial",
   "theorems": [
    "Cres.C110_violated",
    "Cres.C110_apart_partial",
    "Cres.C110_default_distance_partial"
   ],
   "note": "False in general, even on one thread and without ties: for weights -8, 6, 11, -7 at 10, 9, 13, 15 on a line the limit 2 leaves -2 in total and the limit 3 leaves -4, because the first cell takes positive weight from the second one (C110_violated). Proved for all interleavings and any two strategies and searches if no event is within the larger limit of two events with negative weight (C110_apart_partial, C110_default_distance_partial). Exact arithmetic."
  },
  {
   "property": "C111",
   "status": "proved",
   "theorems": [
    "Cres.C111_unresolved",
    "Cres.C111_bound",
    "Cres.C111_lipschitz"
   ],
   "note": "Exact arithmetic for weights. The distance need not be a metric. C111_bound and C111_lipschitz bound the change for observables that vary within cells."
  },
  {
   "property": "C112",
   "status": "proved",
   "theorems": [
    "Cres.C112_run",
    "Cres.C112_completes",
    "Cres.C112_can_finish",
    "Cres.C112_fixed"
   ],
   "note": "Exact arithmetic for weights in C112_run. Any interleaving of evaluations with steps of tasks; each evaluation has an arbitrary result. For each seed the distance to an event is evaluated at most once, as in the code. Distances are not NaN. C112_fixed shows that runs with fixed distances are included."
  },
  {
   "property": "C113",
   "status": "proved",
   "theorems": [
    "Cres.C113_same",
    "Cres.C113_build",
    "Cres.C113_without"
   ],
   "note": "Any arithmetic. The parts of the ROOT library are arbitrary, since they are not used. The program with support is the model for files of any format (C108), the one without is the model for text files (C69)."
  },
  {
   "property": "C114",
   "status": "proved",
   "theorems": [
    "Cres.C114_fails",
    "Cres.C114_error",
    "Cres.C114_main"
   ],
   "note": "Any arithmetic. The input file must not be an output file as well. Output files for earlier input files are created before the error is noticed unless the command line program has scanned the files first (finding 39)."
  },
  {
   "property": "C115",
   "status": "proved",
   "theorems": [
    "Cres.C115_true",
    "Cres.C115_reused",
    "Cres.C115_event_cells",
    "Cres.C115_order"
   ],
   "note": "Any arithmetic and any linear order of distances and weights. The messages are modelled before formatting."
  },
  {
   "property": "C116",
   "status": "proved",
   "theorems": [
    "Cres.C116_default",
    "Cres.C116_builder",
    "Cres.C116_order",
    "Cres.C116_programs",
    "Cres.C116_c"
   ],
   "note": "The type parameters of the builders are fields in the model. Panics of n64 for NaN are left out."
  },
  {
   "property": "C117",
   "status": "partial",
   "theorems": [
    "Cres.C117_violated",
    "Cres.C117_bash_partial",
    "Cres.C117_fish",
    "Cres.C117_directory_partial",
    "Cres.C117_stdout_partial",
    "Cres.C117_shell_partial"
   ],
   "note": "False for fish in all environments (C117_fish: the file name contains a comma) and for bash if XDG_DATA_HOME or BASH_COMPLETION_USER_DIR is set. Proved for bash otherwise, and for the other shells."
  },
  {
   "property": "C118",
   "status": "partial",
   "theorems": [
    "Cres.C118_violated",
    "Cres.C118_radius",
    "Cres.C118_serial_partial"
   ],
   "note": "The sum of weights can be wrong with several threads (C118_violated). Members and radius are right for all interleavings and any arithmetic (C118_radius). With one thread and exact arithmetic the sum is right, too, and all or none of the weights are negative (C118_serial_partial)."
  },
  {
   "property": "C119",
   "status": "proved",
   "theorems": [
    "Cres.C119_print",
    "Cres.C119_get",
    "Cres.C119_ask",
    "Cres.C119_threads",
    "Cres.C119_logger"
   ],
   "note": "Messages have less than 2^31-1 bytes in C119_get. If no call has failed, cres_get_last_err returns 0 and leaves the buffer as it is (C57_no_error). No other code in the process sets a logger."
  },
  {
   "property": "C12",
   "status": "proved",
   "theorems": [
    "Cres.C12_same_distances",
    "Cres.C12_same_neighbours",
    "Cres.C12_tree_naive_agree"
   ],
   "note": ""
  },
  {
   "property": "C120",
   "status": "partial",
   "theorems": [
    "Cres.C120_violated",
    "Cres.C120_hints",
    "Cres.C120_start",
    "Cres.C120_honest_partial",
    "Cres.C120_records_partial",
    "Cres.C120_debug"
   ],
   "note": "False: memory for the declared number of records is allocated before reading (C120_violated; the exact condition is C120_start). Proved if no file declares more records than it contains. Without overflow checks the declared number has no influence on the records that are read (C120_records_partial), with overflow checks more records than declared are a panic (C120_debug)."
  },
  {
   "property": "C121",
   "status": "partial",
   "theorems": [
    "Cres.C121_violated",
    "Cres.C121_c",
    "Cres.C121_rust",
    "Cres.C121_metric"
   ],
   "note": "False for the Rust example, which returns 0 instead of the sum (C121_violated, C121_rust). Proved for the C example with the event views it gets (C121_c). Both are pseudometrics (C121_metric). Exact arithmetic."
  },
  {
   "property": "C122",
   "status": "proved",
   "theorems": [
    "Cres.C122_equal",
    "Cres.C122_order",
    "Cres.C122_weights",
    "Cres.C122_distance"
   ],
   "note": "The comparisons that are derived for events. Momenta are elements of a linearly ordered type (no NaN). C122_distance is about exact arithmetic."
  },
  {
   "property": "C123",
   "status": "proved",
   "theorems": [
    "Cres.C123_excerpt",
    "Cres.C123_short",
    "Cres.C123_ascii"
   ],
   "note": "On the bytes of the text; the specification counts the bytes that start a character."
  },
  {
   "property": "C124",
   "status": "partial",
   "theorems": [
    "Cres.C124_violated",
    "Cres.C124_expected_partial",
    "Cres.C124_number"
   ],
   "note": "False because of the final rescaling: for weights 1 and 3 and threshold 4 the expected contribution of the first event is 10/13, given that events are left (C124_violated). Proved: the prediction is a ratio X f / X 1 times the original sum of weights; the expected values of X f and X 1 are the original prediction and sum of weights (C124_expected_partial). The number of events is as stated (C124_number)."
  },
  {
   "property": "C125",
   "status": "partial",
   "theorems": [
    "Cres.C125_violated",
    "Cres.C125_balanced_partial"
   ],
   "note": "False if there are events at equal distances: for arbitrarily many events at the same distance from each other one of two regions contains all of them (C125_violated). Proved with few ties: with 2^k regions, enough events for the tool and at most m events at the same distance from each event, each region contains at most n / 2^k + (m + 1) k and at least (n + 1) / 2^k - 1 - m k events (C125_balanced_partial)."
  },
  {
   "property": "C126",
   "status": "partial",
   "theorems": [
    "Cres.C126_violated",
    "Cres.C126_builds_violated",
    "Cres.C126_plain_partial",
    "Cres.C126_missing_partial"
   ],
   "note": "False with compression: files compressed with gzip, lz4 or zstd are never decompressed, so that reading them fails (C126_violated; nothing is claimed about bzip2). False if only one of the programs supports several weights (C126_builds_violated). Proved: without compression and with the same feature all that was stored is read again, assuming that the YAML library reads the values it wrote (C126_plain_partial)."
  },
  {
   "property": "C127",
   "status": "proved",
   "theorems": [
    "Cres.C127_outputs",
    "Cres.C127_once",
    "Cres.C127_sum",
    "Cres.C127_error"
   ],
   "note": "One output per region with the records of that region in order (C127_outputs), every record exactly once (C127_once), so that sums over records are conserved (C127_sum); the state after the first error (C127_error). Names of output files are the subject of C73."
  },
  {
   "property": "C128",
   "status": "partial",
   "theorems": [
    "Cres.C128_prefix",
    "Cres.C128_no_failure",
    "Cres.C128_success_partial",
    "Cres.C128_lost",
    "Cres.C128_violated"
   ],
   "note": "In all executions each output file is a first part of the complete output (C128_prefix); without write errors the files are complete unless the program is interrupted (C128_no_failure). Success does not imply complete files: errors in footers are only logged and errors when buffers are emptied at the end are ignored, so that all files can be empty (C128_lost, C128_violated). What holds is that at most the size of the buffer and the footer are missing at the end (C128_success_partial). For text files without compression."
  },
  {
   "property": "C129",
   "status": "proved",
   "theorems": [
    "Cres.C129_success",
    "Cres.C129_failure",
    "Cres.C129_only_negative",
    "Cres.C129_regions"
   ],
   "note": "When the program succeeds and what it writes (C129_success), no changes otherwise (C129_failure), only events with negative weight matter, not files (C129_only_negative), and the number of regions for enough events (C129_regions). Errors while the partition file is written are not modelled."
  },
  {
   "property": "C13",
   "status": "partial",
   "theorems": [
    "Cres.C13_violated",
    "Cres.C13_sound_partial",
    "Cres.C13_found_partial",
    "Cres.C13_always_hidden",
    "Cres.C13_half_hidden"
   ],
   "note": "The property is false: C13_violated is a concrete extended metric for which a neighbour at distance 1 is missed; C13_always_hidden shows that this happens for every sample with two events at infinite distance, and C13_half_hidden that half of all events are never found from their own group if no group contains more than half of the events. What holds: soundness for any arithmetic (C13_sound_partial), and for extended metrics the order and an exact characterisation of the neighbours that are found (C13_found_partial: those outside of no vantage point with infinite radius)."
  },
  {
   "property": "C130",
   "status": "partial",
   "theorems": [
    "Cres.C130_not_itself",
    "Cres.C130_frame",
    "Cres.C130_inputs_partial",
    "Cres.C130_repeat_partial",
    "Cres.C130_violated"
   ],
   "note": "False if an input file has the place and name of an output file for another input file, for example a.x and a.0.x in the output directory: it is overwritten before it is read (C130_violated). Otherwise inputs are unchanged and the results are those for the original contents (C130_inputs_partial), and the program can be run again (C130_repeat_partial). No file is an output file for itself (C130_not_itself), and other files never change (C130_frame). For text files."
  },
  {
   "property": "C131",
   "status": "proved",
   "theorems": [
    "Cres.C131_convex",
    "Cres.C131_range",
    "Cres.C131_effective",
    "Cres.C131_files",
    "Cres.C131_files_range",
    "Cres.C131_cres"
   ],
   "note": "With exact arithmetic. For resampling (C131_convex, C131_range, C131_effective) and for files in complete runs (C131_files, C131_files_range, C131_cres). For files 0 is included because weights of events without identified particles are set to 0 without multiweight (C31)."
  },
  {
   "property": "C132",
   "status": "proved",
   "theorems": [
    "Cres.C132_observables",
    "Cres.C132_scalar_sum",
    "Cres.C132_total_momentum",
    "Cres.C132_zero",
    "Cres.C132_larger_pt_weight",
    "Cres.C132_pt_weight_bound"
   ],
   "note": "With exact arithmetic, for a matching algorithm that finds optimal assignments (external crate pathfinding). Momenta are those that can be made with the public interface (the stored transverse momentum is up to date, C62)."
  },
  {
   "property": "C133",
   "status": "proved",
   "theorems": [
    "Cres.C133_within_cells",
    "Cres.C133_histogram",
    "Cres.C133_scalar_sum"
   ],
   "note": "With exact arithmetic, for a matching algorithm that finds optimal assignments. Jet algorithms (external) are arbitrary functions that return momenta made with the public interface of four-vectors; that momenta read from files are of this kind is proved."
  },
  {
   "property": "C134",
   "status": "proved",
   "theorems": [
    "Cres.C134_bins",
    "Cres.C134_histogram"
   ],
   "note": "With exact arithmetic. C134_bins is for any distance and any observable that is not negative, C134_histogram for the default distance with the assumptions of C133."
  },
  {
   "property": "C135",
   "status": "partial",
   "theorems": [
    "Cres.C135_violated",
    "Cres.C135_more_violated",
    "Cres.C135_near_partial",
    "Cres.C135_unlimited_partial"
   ],
   "note": "False with a limit for the size of cells: C135_violated has a run on one thread in which the weight 6 becomes -1, C135_more_violated one of resampling in which the number of events with negative weight increases from one to three. C135_near_partial, for all interleavings and any limit: this can only happen to events within the maximum cell size of an event with negative weight, and no weight becomes smaller than the smallest one before. C135_unlimited_partial: it does not happen on one thread without a limit."
  },
  {
   "property": "C136",
   "status": "proved",
   "theorems": [
    "Cres.C136_second_run"
   ],
   "note": "For distances that do not depend on event ids and without minimum weight in both runs. The sum of the weights of events with particles is preserved by the first run (as for C131 and C133), so that C77 applies to the second one."
  },
  {
   "property": "C137",
   "status": "partial",
   "theorems": [
    "Cres.C137_violated",
    "Cres.C137_one_file_partial"
   ],
   "note": "False with more weights than records for Les Houches Event Files: C137_violated has a file in which the end tag is missing. C137_one_file_partial: the file is complete in all other cases, the number returned is correct in all cases and other files do not change. For objects that are used after reading see C44."
  },
  {
   "property": "C14",
   "status": "partial",
   "theorems": [
    "Cres.C14_violated",
    "Cres.C14_enough_depth_partial"
   ],
   "note": "property is false for n >= 2^(depth+1) distinct points (some point is never yielded); true for n < 2^(depth+1)"
  },
  {
   "property": "C15",
   "status": "proved",
   "theorems": [
    "Cres.C15_par_construction",
    "Cres.C15_seq_construction",
    "Cres.C15_offsets_in_range",
    "Cres.C15_par_eq_seq"
   ],
   "note": ""
  },
  {
   "property": "C16",
   "status": "proved",
   "theorems": [
    "Cres.C16_seeds"
   ],
   "note": ""
  },
  {
   "property": "C17",
   "status": "proved",
   "theorems": [
    "Cres.C17_local",
    "Cres.C17_far_events_unchanged",
    "Cres.C17_event_distances"
   ],
   "note": ""
  },
  {
   "property": "C18",
   "status": "proved",
   "theorems": [
    "Cres.C18_pseudometric"
   ],
   "note": "Over the reals, all multiplicities. The crate function kuhn_munkres is assumed to return the maximum total weight (SolvesAssignment; shown satisfiable by solvesAssignment_exists)."
  },
  {
   "property": "C19",
   "status": "proved",
   "theorems": [
    "Cres.C19_cheapest_pairing",
    "Cres.C19_order"
   ],
   "note": "Same assumption on kuhn_munkres. next_permutation is modelled and proved to enumerate all permutations."
  },
  {
   "property": "C20",
   "status": "proved",
   "theorems": [
    "Cres.C20_types_descending",
    "Cres.C20_momenta",
    "Cres.C20_types",
    "Cres.C20_order",
    "Cres.C20_outgoing_with_pid"
   ],
   "note": ""
  },
  {
   "property": "C21",
   "status": "proved",
   "theorems": [
    "Cres.C21_region_exists",
    "Cres.C21_region_meaning"
   ],
   "note": "region() < len() for any list of bisections, and the exact region reached."
  },
  {
   "property": "C22",
   "status": "partial",
   "theorems": [
    "Cres.C22_violated",
    "Cres.C22_enough_events_partial",
    "Cres.C22_too_few_refused"
   ],
   "note": "False as stated: for every 2^k regions, k>=2, and every n in [2^k, 3*2^(k-1)-1) the tool panics. Proved for all other n >= 2^k."
  },
  {
   "property": "C23",
   "status": "proved",
   "theorems": [
    "Cres.C23_heap_of_tree",
    "Cres.C23_partition_of_constructed_tree",
    "Cres.C22_enough_events_partial"
   ],
   "note": "Heap layout, distinct vantage points and distinct stored events."
  },
  {
   "property": "C24",
   "status": "partial",
   "theorems": [
    "Cres.C24_violated",
    "Cres.C24_weak_partial",
    "Cres.C24_radius_event_is_classified_inside"
   ],
   "note": "Strict inequalities are false for ties; weak inequalities proved. The event defining the radius is stored outside but classified inside."
  },
  {
   "property": "C25",
   "status": "partial",
   "theorems": [
    "Cres.C25_violated",
    "Cres.C25_sum_preserved_partial",
    "Cres.C25_nonneg_partial"
   ],
   "note": "False as stated if all events are discarded (C25_violated). Holds whenever events with finite weights are returned."
  },
  {
   "property": "C26",
   "status": "proved",
   "theorems": [
    "Cres.C26_trivial",
    "Cres.C26_survivors",
    "Cres.C26_survivors_nonFinite",
    "Cres.C26_no_unweighter"
   ],
   "note": ""
  },
  {
   "property": "C27",
   "status": "proved",
   "theorems": [
    "Cres.C27_keep_probability",
    "Cres.C27_expected_weight"
   ],
   "note": ""
  },
  {
   "property": "C28",
   "status": "partial",
   "theorems": [
    "Cres.C28_violated",
    "Cres.C28_common_sign_partial",
    "Cres.C28_nonneg_partial"
   ],
   "note": "False as stated (C28_violated): the common factor can be negative. Holds for samples without negative weights."
  },
  {
   "property": "C29",
   "status": "proved",
   "theorems": [
    "Cres.C29_ids_by_position",
    "Cres.C29_succeeds_iff",
    "Cres.C29_terminates",
    "Cres.C29_any_order"
   ],
   "note": "for arbitrary conversion and clustering functions, all orders of tasks relative to each other and to the main thread"
  },
  {
   "property": "C30",
   "status": "proved",
   "theorems": [
    "Cres.C30_entry_per_record",
    "Cres.C30_no_panic",
    "Cres.C30_resampler_subCollection",
    "Cres.C30_unweighter_subCollection",
    "Cres.C30_debug_log_panics"
   ],
   "note": "arbitrary resamplers and unweighters that return sub-collections; the default ones do"
  },
  {
   "property": "C31",
   "status": "partial",
   "theorems": [
    "Cres.C31_violated",
    "Cres.C31_multiweight_partial",
    "Cres.C31_single_weight_zero"
   ],
   "note": "false without the feature multiweight (the record gets weight zero); proved with multiweight"
  },
  {
   "property": "C32",
   "status": "partial",
   "theorems": [
    "Cres.C32_violated",
    "Cres.C32_single_weight_partial",
    "Cres.C32_multiweight_original",
    "Cres.C32_survivors"
   ],
   "note": "false with the feature multiweight (the record keeps its original weight); proved without"
  },
  {
   "property": "C33",
   "status": "partial",
   "theorems": [
    "Cres.C33_violated",
    "Cres.C33_multiweight_partial",
    "Cres.C33_all_identified_partial",
    "Cres.C33_single_weight_loss"
   ],
   "note": "false without multiweight if events have no identified particles; the lost weight is given exactly; proved otherwise, for all schedules of reading and resampling"
  },
  {
   "property": "C34",
   "status": "partial",
   "theorems": [
    "Cres.C34_violated",
    "Cres.C34_violated_resampling",
    "Cres.C34_one_worker_order_partial",
    "Cres.C34_one_worker_partial"
   ],
   "note": "false for several threads: the order of events depends on which conversion task finishes first; proved for a single worker thread"
  },
  {
   "property": "C35",
   "status": "partial",
   "theorems": [
    "Cres.C35_violated",
    "Cres.C35_hepmc_split_partial",
    "Cres.C35_unique"
   ],
   "note": "The claim fails for files that end with an incomplete event line 'E' (witness), and the reader panics on invalid UTF-8. Proved for all UTF-8 files not ending in \"\\nE\"."
  },
  {
   "property": "C36",
   "status": "partial",
   "theorems": [
    "Cres.C36_violated",
    "Cres.C36_lhef_split_partial",
    "Cres.C36_no_init",
    "Cres.C36_unique"
   ],
   "note": "The reader panics on invalid UTF-8 (witness). Proved for all UTF-8 files."
  },
  {
   "property": "C37",
   "status": "partial",
   "theorems": [
    "Cres.C37_violated",
    "Cres.C37_stripper_split_partial",
    "Cres.C37_unique"
   ],
   "note": "The claim fails for files that end with \"<se\" (witness). Proved for all other UTF-8 files."
  },
  {
   "property": "C38",
   "status": "partial",
   "theorems": [
    "Cres.C38_violated",
    "Cres.C38_hepmc_update_partial",
    "Cres.C38_hepmc_update_exact_partial"
   ],
   "note": "Literally false: surplus blanks before the weight are removed (witness). Proved for all readable records and all finite weights with the blanks counted as part of the entry, and literally for records without adjacent blanks."
  },
  {
   "property": "C39",
   "status": "partial",
   "theorems": [
    "Cres.C39_violated",
    "Cres.C39_named_update_partial"
   ],
   "note": "False if the name of the first weight is selected and the two copies get different values (witness). Proved otherwise, for distinct names that all occur exactly once, up to an error in a corner case stated in the theorem."
  },
  {
   "property": "C40",
   "status": "partial",
   "theorems": [
    "Cres.C40_violated",
    "Cres.C40_lhef_update_partial",
    "Cres.C40_lhef_update_exact_partial"
   ],
   "note": "As C38."
  },
  {
   "property": "C41",
   "status": "partial",
   "theorems": [
    "Cres.C41_violated",
    "Cres.C41_scale_partial",
    "Cres.C41_event_files",
    "Cres.C41_read_partial",
    "Cres.C41_write_partial"
   ],
   "note": "False for channels without cross section, for which -1 is used (witness). Proved for exactly one cross section per channel and any order of files, in exact arithmetic, for weights followed by a quotation mark."
  },
  {
   "property": "C42",
   "status": "proved",
   "theorems": [
    "Cres.C42_reads_all",
    "Cres.C42_update_all",
    "Cres.C42_unchanged"
   ],
   "note": "For any list of readable files of the three text formats, in any order; the weights come out in the order of reading and go to the records they were read from."
  },
  {
   "property": "C43",
   "status": "partial",
   "theorems": [
    "Cres.C43_violated",
    "Cres.C43_update_next_partial",
    "Cres.C43_rewind_panics"
   ],
   "note": "False: updating past the last record panics instead of reporting the end (witness). Proved for as many calls as there are records; updating after rewinding panics."
  },
  {
   "property": "C44",
   "status": "partial",
   "theorems": [
    "Cres.C44_violated",
    "Cres.C44_reader_partial",
    "Cres.C44_combined"
   ],
   "note": "False for STRIPPER XML in debug builds, where re-reading panics (witness). Proved for the other formats, and for all formats in release builds."
  },
  {
   "property": "C45",
   "status": "partial",
   "theorems": [
    "Cres.C45_violated",
    "Cres.C45_same_name_violated",
    "Cres.C45_inputs_partial",
    "Cres.C45_outputs_partial"
   ],
   "note": "False if an input is also an output, or if two inputs share an output (witnesses). Proved when all paths differ."
  },
  {
   "property": "C46",
   "status": "partial",
   "theorems": [
    "Cres.C46_violated",
    "Cres.C46_deterministic",
    "Cres.C46_detect_partial",
    "Cres.C46_first_bytes",
    "Cres.C46_white_space"
   ],
   "note": "False without the LHEF feature: an LHEF file is classified as HepMC2 instead of an error (witness). Proved for all contents and feature sets otherwise; the first buffer decides."
  },
  {
   "property": "C47",
   "status": "partial",
   "theorems": [
    "Cres.C47_violated",
    "Cres.C47_panics",
    "Cres.C47_update_all_partial",
    "Cres.C47_combined",
    "Cres.C47_round_trip"
   ],
   "note": "False: with as many entries as records there is always a panic. Proved: with more entries than records, and for the loop in CombinedFileIO with one entry per record; written weights are read back."
  },
  {
   "property": "C48",
   "status": "partial",
   "theorems": [
    "Cres.C48_violated",
    "Cres.C48_hepmc_violated",
    "Cres.C48_stripper_violated",
    "Cres.C48_nan_violated",
    "Cres.C48_hepmc_partial",
    "Cres.C48_lhef_partial",
    "Cres.C48_stripper_partial",
    "Cres.C48_no_weights",
    "Cres.C48_few_particles"
   ],
   "note": "False (witnesses). Proved for all byte strings: the listed peculiarities are the only causes of panics."
  },
  {
   "property": "C49",
   "status": "partial",
   "theorems": [
    "Cres.C49_violated",
    "Cres.C49_reader_partial",
    "Cres.C49_combined_partial"
   ],
   "note": "False for STRIPPER XML after rewinding (witness). Proved for the other cases."
  },
  {
   "property": "C50",
   "status": "proved",
   "theorems": [
    "Cres.C50_collect"
   ],
   "note": "All sequences of cells, all random choices."
  },
  {
   "property": "C51",
   "status": "partial",
   "theorems": [
    "Cres.C51_violated",
    "Cres.C51_members_violated",
    "Cres.C51_weight_violated",
    "Cres.C51_combine_partial"
   ],
   "note": "False: truncation after combining keeps the smallest cells (witnesses for radius, members and weight). Proved: what combine keeps, and that it is right for at most ten cells."
  },
  {
   "property": "C52",
   "status": "proved",
   "theorems": [
    "Cres.C52_statistics",
    "Cres.C52_independent"
   ],
   "note": "All distributions over threads and orders of combining."
  },
  {
   "property": "C53",
   "status": "partial",
   "theorems": [
    "Cres.C53_violated",
    "Cres.C53_event_cells_partial"
   ],
   "note": "False as documented: the keys are event ids, the values numbers of cells (witness); proved for the map in this direction."
  },
  {
   "property": "C54",
   "status": "proved",
   "theorems": [
    "Cres.C54_validate",
    "Cres.C54_no_panic",
    "Cres.C54_partition_panics",
    "Cres.C54_partition_values"
   ],
   "note": "Also proved: exactly when cres-make-partition, which does not validate, panics."
  },
  {
   "property": "C55",
   "status": "proved",
   "theorems": [
    "Cres.C55_parse_compr"
   ],
   "note": "All strings; the Unicode class \\d of the regex is a parameter containing the ASCII digits and not '+'."
  },
  {
   "property": "C56",
   "status": "proved",
   "theorems": [
    "Cres.C56_log2",
    "Cres.C56_parse_nregions"
   ],
   "note": "All strings, all 32-bit numbers."
  },
  {
   "property": "C57",
   "status": "proved",
   "theorems": [
    "Cres.C57_buffer",
    "Cres.C57_no_error",
    "Cres.C57_last_error"
   ],
   "note": "All messages below 2^31-1 bytes, all buffer sizes, all histories of runs."
  },
  {
   "property": "C58",
   "status": "partial",
   "theorems": [
    "Cres.C58_violated",
    "Cres.C58_view_partial",
    "Cres.C58_to_event"
   ],
   "note": "False with multiweight: the pointer leads to the address of the weights (witness). Proved without multiweight, with the other fields and the conversion back to an event."
  },
  {
   "property": "C59",
   "status": "proved",
   "theorems": [
    "Cres.C59_cluster",
    "Cres.C59_once",
    "Cres.C59_order",
    "Cres.C59_isolated",
    "Cres.C59_no_photon_def",
    "Cres.C59_no_clustering"
   ],
   "note": "All events, all definitions; the sequential jet algorithm (library) is a parameter, isolation in exact arithmetic."
  },
  {
   "property": "C60",
   "status": "partial",
   "theorems": [
    "Cres.C60_violated",
    "Cres.C60_outputs",
    "Cres.C60_once",
    "Cres.C60_names",
    "Cres.C60_split_name",
    "Cres.C60_several_partial",
    "Cres.C60_hepmc_reread",
    "Cres.C60_lhef_reread",
    "Cres.C60_stripper_reread",
    "Cres.C60_error"
   ],
   "note": "False for two input files with the same name: outputs are overwritten (witness). Proved for each file and for files with different output names; output files are read again as the events of the region."
  },
  {
   "property": "C61",
   "status": "partial",
   "theorems": [
    "Cres.C61_violated",
    "Cres.C61_violated_update",
    "Cres.C61_violated_classify",
    "Cres.C61_restored",
    "Cres.C61_run_partial",
    "Cres.C61_runs_partial"
   ],
   "note": "False after errors: bars are not finished (witnesses). Proved for all sequences in which each bar is finished and for runs without read or write errors."
  },
  {
   "property": "C62",
   "status": "proved",
   "theorems": [
    "Cres.C62_pt_up_to_date"
   ],
   "note": "Over the real numbers."
  },
  {
   "property": "C63",
   "status": "partial",
   "theorems": [
    "Cres.C63_combined_violated",
    "Cres.C63_uniform",
    "Cres.C63_combined_partial"
   ],
   "note": "Proved for one collector; false after combining: cells from a thread with fewer cells are more likely (witness). Proved: the probabilities after combining."
  },
  {
   "property": "C64",
   "status": "proved",
   "theorems": [
    "Cres.C64_parse"
   ],
   "note": "All texts in the grammar of Spec/RecordText.lean; values of numbers are abstract."
  },
  {
   "property": "C65",
   "status": "proved",
   "theorems": [
    "Cres.C65_parse"
   ],
   "note": "All texts in the grammar of Spec/RecordText.lean with at least two particles (fewer: panic, C48)."
  },
  {
   "property": "C66",
   "status": "partial",
   "theorems": [
    "Cres.C66_violated",
    "Cres.C66_parse_partial"
   ],
   "note": "False without a blank in front of the energy: its first character is dropped (witness). Proved if there is at least one blank."
  },
  {
   "property": "C67",
   "status": "proved",
   "theorems": [
    "Cres.C67_convert"
   ],
   "note": "All records, selections of weights and numbers of particles."
  },
  {
   "property": "C68",
   "status": "partial",
   "theorems": [
    "Cres.C68_violated",
    "Cres.C68_event_file_partial",
    "Cres.C68_readable_partial",
    "Cres.C68_all_files_partial"
   ],
   "note": "False as stated: in an LHEF record with the tag </event> directly after the weight the tag is removed together with the old weight (C68_violated). Proved for UTF-8 text files in the three formats (Spec/Reread.lean: TextFile, which excludes this case and files ending inside the first line or tag of an event), any number of files, events, previous calls; central weights only."
  },
  {
   "property": "C69",
   "status": "partial",
   "theorems": [
    "Cres.C69_violated",
    "Cres.C69_files_partial",
    "Cres.C69_unique_content",
    "Cres.C69_sum_partial",
    "Cres.C69_conserved_partial",
    "Cres.C69_completes_partial",
    "Cres.C69_unweight_partial",
    "Cres.C69_cres_completes_partial",
    "Cres.C69_cres_partial",
    "Cres.cres_goodComponents"
   ],
   "note": "False as stated: without multiweight the weights of events without outgoing particles are lost (C69_violated). Proved for exact arithmetic, central weights and the three text formats, for all schedules of reading and resampling: the outputs have the same content up to weights and the sum is conserved without unweighting, with multiweight or if all events have particles (C69_cres_partial); with unweighting and without multiweight the sum of the events with particles is conserved unless all events are rejected (C69_unweight_partial); in release builds without unweighting every run gets as far as updating the weights (C69_cres_completes_partial). Missing: unweighting with multiweight (discarded events keep their weights, C32). For several weights see C78, for ntuples C104 and C108."
  },
  {
   "property": "C70",
   "status": "proved",
   "theorems": [
    "Cres.C70_sum_conserved",
    "Cres.C70_operations",
    "Cres.C70_linear",
    "Cres.C70_fl64_nearest",
    "Cres.C70_f64"
   ],
   "note": "For any rounding with bounded error; C70_f64 for IEEE 754 binary64, with C70_fl64_nearest to show that fl64 rounds to nearest."
  },
  {
   "property": "C71",
   "status": "partial",
   "theorems": [
    "Cres.C71_violated",
    "Cres.C71_negative_weights_partial",
    "Cres.C71_all_neighbours_partial"
   ],
   "note": "False in f64: the sums in Cell::new and Cell::resample are formed in different orders, and a cell with sum 0 can get a negative average. Proved: what is left is not more negative than twice the rounding errors."
  },
  {
   "property": "C72",
   "status": "proved",
   "theorems": [
    "Cres.C72_output",
    "Cres.C72_inside",
    "Cres.C72_collisions",
    "Cres.C72_files",
    "Cres.C72_no_name"
   ],
   "note": "Paths are byte strings; no symbolic links. For all settings, contents of files and outcomes of the run."
  },
  {
   "property": "C73",
   "status": "partial",
   "theorems": [
    "Cres.C73_violated",
    "Cres.C73_relative_violated",
    "Cres.C73_text_partial",
    "Cres.C73_ntuple_partial",
    "Cres.C73_names"
   ],
   "note": "False for ntuples: the output is next to the input file, or the number is put into the path before the first dot (witnesses). Proved for the text formats, and for ntuples given by name only."
  },
  {
   "property": "C74",
   "status": "proved",
   "theorems": [
    "Cres.C74_run",
    "Cres.C74_completes"
   ],
   "note": "For any distance, clustering and interleaving. Ntuple files are not part of the model of complete runs."
  },
  {
   "property": "C75",
   "status": "proved",
   "theorems": [
    "Cres.CApi.C75_run",
    "Cres.CApi.C75_completes",
    "Cres.CApi.C75_return",
    "Cres.CApi.C75_same_as_main"
   ],
   "note": "As C74 with the options of the C API; the statement on the return value is proved for all calls. CApi.C75_same_as_main: a call of cres_run does the same as the command line program with the corresponding settings, with the result reported as return value and last error."
  },
  {
   "property": "C76",
   "status": "proved",
   "theorems": [
    "Cres.C76_no_increase",
    "Cres.C76_cres",
    "Cres.C76_main"
   ],
   "note": "All interleavings; also for the main function with paths of files."
  },
  {
   "property": "C77",
   "status": "proved",
   "theorems": [
    "Cres.C77_no_negative",
    "Cres.C77_completes",
    "Cres.C77_main",
    "Cres.C77_main_completes",
    "Cres.C77_default_distance"
   ],
   "note": "For any distance, also with rounded distances (the size of cells is not limited if no distance or difference of distances exceeds the maximum), and for the default distance over real numbers; also for the main function with paths of files."
  },
  {
   "property": "C78",
   "status": "partial",
   "theorems": [
    "Cres.C78_violated",
    "Cres.C78_named_partial",
    "Cres.C78_cres_partial",
    "Cres.C78_main_partial",
    "Cres.C78_completes",
    "Cres.C78_selected_read"
   ],
   "note": "False if the selected names are in a different order in different records: weights with different names are averaged (witness). Proved for files in which they are always in the same order and the name of the first weight is selected always or never. Exact arithmetic, no unweighting."
  },
  {
   "property": "C79",
   "status": "proved",
   "theorems": [
    "Cres.C79_sums",
    "Cres.C79_succeeds",
    "Cres.C79_main"
   ],
   "note": "For HepMC2, Les Houches Event Files and STRIPPER XML files. Scales are part of the error bound only if there is a STRIPPER XML file."
  },
  {
   "property": "C80",
   "status": "proved",
   "theorems": [
    "Cres.C80_negative_weights",
    "Cres.C80_main",
    "Cres.C80_default_distance"
   ],
   "note": "As C79. For any distance; distances can be rounded to f64 as well."
  },
  {
   "property": "C81",
   "status": "partial",
   "theorems": [
    "Cres.C81_violated",
    "Cres.C81_tree_search_partial",
    "Cres.C81_naive_search_partial",
    "Cres.C81_same_distances_partial",
    "Cres.C81_all_found_partial",
    "Cres.C81_f64_partial"
   ],
   "note": "False for the tree search: rounding of the differences used for pruning can hide neighbours and change their order. Proved: the naive search is exact; the tree search is exact up to the sum of the errors of the triangle inequality and of one difference, which is 2^-50 times the largest distance (plus 2^-1072) for a correctly rounded metric in f64; with no limit on distances all points are found for any distance and arithmetic."
  },
  {
   "property": "C82",
   "status": "proved",
   "theorems": [
    "Cres.C82_far_events",
    "Cres.C82_nothing_to_do",
    "Cres.C82_again"
   ],
   "note": "Text formats (with central weights, or selected names of HepMC2 weights) and no unweighting, for events with particles after clustering (without multiweight, the weights of other events become 0, see C69). Any arithmetic, distance and schedule. C82_again shows in addition that a second run has no effect in the situation of C77 (one thread, exact arithmetic); its settings may differ."
  },
  {
   "property": "C83",
   "status": "proved",
   "theorems": [
    "Cres.C83_linear"
   ],
   "note": "All interleavings, all weights read from the files (also with selected names)."
  },
  {
   "property": "C84",
   "status": "proved",
   "theorems": [
    "Cres.C84_crash",
    "Cres.C84_main",
    "Cres.run_readsAll"
   ],
   "note": "For text formats without compression, when no output file is an input file or is written twice (see C45). What a run does with files is the list runOps in Model/Disk.lean; executions (Disk.Exec) may stop at any place, also inside a write, and errors may occur at any place. run_readsAll: the number of read calls in the statement exists for every run. C84_main: for the command line program with paths."
  },
  {
   "property": "C85",
   "status": "partial",
   "theorems": [
    "Cres.C85_violated",
    "Cres.C85_no_failure",
    "Cres.C85_possible",
    "Cres.C85_missing_partial",
    "Cres.C85_lost_partial",
    "Cres.C85_main_partial"
   ],
   "note": "False: errors when the rest of the buffer is written to a file are ignored, because this is done when the writer is dropped (witness: success with empty output files). Proved: at most as many bytes at the end as fit into the buffer (8192) are missing; without write errors the output is complete; whenever the output is smaller than the buffer all of it can be lost."
  },
  {
   "property": "C86",
   "status": "proved",
   "theorems": [
    "Cres.C86_again",
    "Cres.C86_main"
   ],
   "note": "As C84; for all further runs, with any settings. After a failing run, output files that this run did not reach differ. C86_main: for the command line program with paths."
  },
  {
   "property": "C87",
   "status": "partial",
   "theorems": [
    "Cres.C87_violated",
    "Cres.C87_lhef_violated",
    "Cres.C87_truncated_partial",
    "Cres.C87_interrupted_partial"
   ],
   "note": "False: truncated files are accepted (witnesses: in a HepMC2 file that ends within a number the last event has weight 6 instead of 65 and no particles; in a truncated Les Houches Event File events are missing). Proved: all events but the last one are the right ones, for Les Houches Event Files all events; so this also holds for what is left after an interrupted run."
  },
  {
   "property": "C88",
   "status": "proved",
   "theorems": [
    "Cres.C88_same_weights",
    "Cres.C88_main"
   ],
   "note": "For text formats without compression. Results differ between runs on the same files, because events are converted in parallel; so the statement is about the set of possible results. C88_same_weights: for any components, also for runs that fail before weights are updated. C88_main: for the command line program with paths, if the new weights can be written to the files."
  },
  {
   "property": "C89",
   "status": "proved",
   "theorems": [
    "Cres.C89_same_weights",
    "Cres.C89_main",
    "Cres.C89_default_distance",
    "Cres.C89_exact_sums"
   ],
   "note": "As C88. The distance must not use event ids; C89_default_distance: the distance of the command line program does not. In debug builds, which check sums of weights, sums must not depend on the order of terms (C89_exact_sums: true in exact arithmetic); release builds have no such condition. Runs that reach the update of weights."
  },
  {
   "property": "C90",
   "status": "proved",
   "theorems": [
    "Cres.C90_same_weights",
    "Cres.C90_main",
    "Cres.C90_default_distance",
    "Cres.C90_exact",
    "Cres.C90_rounded"
   ],
   "note": "As C88 and C89, the statement is about the set of possible results. C90_same_weights is for any map that respects the arithmetic operations and comparisons used; C90_exact shows that multiplication by c > 0 in a field is such a map, C90_rounded the same for rounded arithmetic if rounding commutes with the factor. The distance must not use weights (C90_default_distance: the distance of the command line program does not) and sorting of seeds may use the weights only through comparisons. The random numbers in unweighting are drawn from 0 to the minimum weight, so they are converted as well."
  },
  {
   "property": "C91",
   "status": "proved",
   "theorems": [
    "Cres.C91_sum",
    "Cres.C91_sequential"
   ],
   "note": "For f64 rounding (round to nearest, ties to even). C91_sum: parallel sums split in any way; C91_sequential: sums from left to right. exUnwF64_run: an example in which the sum changes, so the word \"exactly\" in the comment of the code holds only without rounding (C25). Nonzero weights must be at least 2^-600, the minimum weight and the sum of weights between 2^-200 and 2^200. Infinities are not modelled."
  },
  {
   "property": "C92",
   "status": "proved",
   "theorems": [
    "Cres.C92_main",
    "Cres.C92_same_weights",
    "Cres.C92_distance",
    "Cres.C92_rotated",
    "Cres.C92_mirrored",
    "Cres.C92_in_units",
    "Cres.C92_turned",
    "Cres.C92_components",
    "Cres.C92_unit",
    "Cres.C92_same_unit",
    "Cres.C92_isolated",
    "Cres.C92_same_settings",
    "Cres.C92_settings_in_units"
   ],
   "note": "Exact arithmetic in distances. C92_main: complete runs with changed momenta for settings related by MovedSettings; C92_same_settings / C92_settings_in_units: the settings with the Euclidean distance are related in this way, provided the jet algorithm (external, a parameter) finds the same jets in rotated or rescaled momenta. C92_rotated, C92_mirrored, C92_in_units, C92_turned (rotations in space, for vanishing tau): the distance function."
  },
  {
   "property": "C93",
   "status": "proved",
   "theorems": [
    "Cres.C93_same_resampling",
    "Cres.C93_output"
   ],
   "note": "Exact arithmetic. C93_same_resampling: weights passed to the output files, with and without multiweight. C93_output: the output files without multiweight (with multiweight discarded events keep their original weights, see C32). The sum of weights is lost if all events are discarded (finding for C25)."
  },
  {
   "property": "C94",
   "status": "partial",
   "theorems": [
    "Cres.C94_region_file_partial",
    "Cres.C94_files_partial",
    "Cres.C94_sum",
    "Cres.C94_violated"
   ],
   "note": "The property is false for HepMC2 files with a blank line at the end of an event (C94_violated, finding 34). C94_region_file_partial (one file) and C94_files_partial (several files) prove it for records with regular ends: without the footer, HepMC2 records end with a line that is not blank, and STRIPPER XML records contain a complete tag (LHEF: no condition). C94_sum: cres runs for all regions together preserve the sum of weights (exact arithmetic, no minimum weight). STRIPPER XML files of a region keep the event count of the full file in the header, so weights are scaled as in a run with all events."
  },
  {
   "property": "C95",
   "status": "proved",
   "theorems": [
    "Cres.C95_compressed",
    "Cres.C95_plain",
    "Cres.C95_same",
    "Cres.C95_interrupted",
    "Cres.C95_possible",
    "Cres.C95_main"
   ],
   "note": "The compression algorithms are parameters (Codec): decompressing everything an encoder has written after it was dropped gives what was written to it, available data are not taken back, and data without a known signature are not changed by decompression. Without output compression (C95_plain) an output file is read again as it is only if it does not begin with the signature of a compression format."
  },
  {
   "property": "C96",
   "status": "proved",
   "theorems": [
    "Cres.C96_reading_bounded",
    "Cres.C96_reading_ends",
    "Cres.C96_record_loops",
    "Cres.C96_parse_loops",
    "Cres.C96_file_loops",
    "Cres.C96_search",
    "Cres.C96_read_tasks_bounded",
    "Cres.C96_read_tasks_end",
    "Cres.C96_resampling",
    "Cres.C96_run",
    "Cres.C96_main"
   ],
   "note": "Loops of the code are functions with a bounded number of steps in the model; C96_record_loops, C96_parse_loops, C96_file_loops and C96_search say that a larger number of steps gives the same result. Other loops of the code run over collections or ranges. Deadlocks are excluded without any assumption on weights (cf. C08). Not included: the external clustering library, ntuple files."
  },
  {
   "property": "C97",
   "status": "proved",
   "theorems": [
    "Cres.C97_same_runs",
    "Cres.C97_main",
    "Cres.C97_one_thread",
    "Cres.C97_default_distance"
   ],
   "note": "For exact distances. The weights may have any arithmetic with injective negation, such as f64. Ties are excluded only where they matter: at most the maximum distance from an event with negative weight; the seeds only if they are sorted by weight."
  },
  {
   "property": "C98",
   "status": "proved",
   "theorems": [
    "Cres.C98_determined",
    "Cres.C98_reordered",
    "Cres.C98_default_distance"
   ],
   "note": "Exact arithmetic of weights and distances: in f64 the sums in a cell are taken in the order of events in memory, so that results agree only up to rounding. The seed strategy is mostNegative or leastNegative; with \"next\" the seeds are taken in the order in memory. With several threads results can differ (C05)."
  },
  {
   "property": "C99",
   "status": "proved",
   "theorems": [
    "Cres.C99_results",
    "Cres.C99_one_after_another",
    "Cres.C99_ends",
    "Cres.C99_possible",
    "Cres.C99_directories"
   ],
   "note": "The content of an input file is known when it has been opened, and writing is immediate, as in the model of files. Only the file system is shared. Runs with common output files are excluded; they overwrite the files of each other."
  }
 ]
}
