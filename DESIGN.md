# Formal model of a-maier/cres in Lean 4

Properties: `properties.jsonl`. Claims: `MANIFEST.json`. Sources: `lean/Verif/`. Wrong programs tried: `seeded/LOG.jsonl`.

* `Verif/Model/*`  - the model, function by function, each definition citing `/repo` file and lines.
* `Verif/Spec/*`   - small specifications that do not use the model's helpers.
* `Verif/Proofs/*` - lemmas.
* `Verif/Props/*`  - the property theorems `Cnn_...`, each next to a non-vacuity `example`.

A property that the code does not have is kept in full as `Cnn_claim` (or, if it is short, in the theorem itself);
`Cnn_violated` proves its negation with a concrete witness, and `Cnn_..._partial` states what does hold.

## Trusted base

* Lean's kernel and the three standard axioms `propext`, `Classical.choice`, `Quot.sound`. No further axioms,
  no `native_decide`, `bv_decide`, `sorry`. All theorems in `MANIFEST.json` depend on a subset of these three; fewer are
  used by `C09_log_order`, `C13_violated`, `C15_par_eq_seq`, `C29_terminates`, `C29_any_order`, `C41_event_files`, `C53_violated`,
  `C54_validate`, `C54_no_panic`, `C54_partition_panics`, `C61_restored`, `C89_exact_sums`, `C92_same_unit`,
  `C96_read_tasks_bounded`, `C96_read_tasks_end`, `C116_default`, `C116_builder`, `C116_order`, `C116_programs`, `C123_excerpt`, `C123_short`, `C126_violated`, `C129_success`, `C130_not_itself` (`propext`, `Quot.sound`), `C22_too_few_refused`, `C26_trivial`,
  `C26_no_unweighter`, `C57_no_error`, `C59_no_photon_def`, `C60_split_name`, `C61_runs_partial`, `C122_weights`, `C123_ascii`, `C129_failure`, `C129_only_negative` (`propext`) and
  `C61_violated*`, `C61_run_partial`, `C116_c` (none).
* The correspondence between `/repo` and `Verif/Model/*` (by reading; the code was not run).

### What the model assumes

Numbers
* `N64`/`f64` weights and distances are elements of an arbitrary linearly ordered field, or an ordered group where only
  differences are used; the square roots in the event distance are those of the reals. With the following exceptions rounding
  is **not** modelled: conservation of weight etc. are statements about exact arithmetic.
* Resampling itself (`Model/Resample.lean`, `Model/Concurrent.lean`) is defined for any operations on weights. Locking,
  progress, serialisability and construction of cells (C05 on one thread, C06, C08, C09, `C03_cell_any`) are proved
  for any such operations. `Model/Rounding.lean` defines rounded operations and IEEE 754 binary64 without overflow; C70
  and C71 are about these. The weights are added up in the order of the code.
* The model of complete runs (`Model/Program.lean`, `Model/Main.lean`) is defined for any operations, too; that runs complete,
  and which files and events are read and written, is proved for any operations, and C79 and C80 are about `f64`.
* The neighbour searches are defined for any comparison and difference of distances (`DistNum`); C81 is about `f64` distances.
* Infinity and NaN occur only in the arithmetic used for C13 (`Model/ExtFloat.lean`) and as the outcome "panic in debug
  builds" of parsed NaN weights.
* `usize` is `Nat`, with explicit bounds, wrap-around or underflow where the code can hit them (sizes of error messages,
  `u32` region numbers, remaining STRIPPER records, byte offsets).
* Printing and parsing of floating-point numbers (`FloatFormat`): which texts are numbers is modelled; their values are
  arbitrary, except that a finite number is printed as an optional sign, digits and possibly a point and digits, and that
  this text has the value of the number. `Model/ExampleFormat.lean` shows that the assumptions can be met, and `Model/F64Format.lean` that
  this is so for all finite `f64`.

Text and files
* Text is a list of bytes. cres searches only for ASCII, which never occurs inside another UTF-8 character. UTF-8 validation is
  modelled (`validUtf8`) with the state machine of the standard.
* Parsers of the library `nom` used by cres are modelled on bytes.
* XML: the library that reads the opening tags of STRIPPER files and the normalisation files is a parameter (`xmlInfo`).
* Files are maps from paths to contents after decompression. C95 justifies this: compression algorithms are arbitrary, but
  decompression has to give back what was written. (The encoder for lz4 is dropped without finishing, so that the end mark is
  missing. We assume that the data can nevertheless be read completely, as with the lz4 library itself.) Output is written at once, and
  the only operating-system failure is a missing input file, except in C84–C86 and C95: there files are written through buffers,
  creating and writing files can fail, and the program can be interrupted (`Model/Disk.lean`, `Model/Compressed.lean`).
  A reader keeps the content the file had when it was opened. Paths are arbitrary where this is modelled (C72–C75): they are
  resolved component by component, `..` included. There are no links, a slash at the end has no effect and creating the
  output directory is not modelled.
* Format detection sees an arbitrary non-empty prefix of the file (the first buffer).
* ROOT ntuples: the library is a list of records with a position, and a list of written records; a file is a list of records,
  and opening an output file makes it empty. Complete runs are modelled for files of text formats (C69), for ntuple files (C104) and
  for mixtures of both (C108), where a file is a sequence of bytes and the library gives the records in it and the content for
  given records.

Libraries and system
* Unstable and parallel sorts return some sorted permutation; rayon `min_by_key` returns some minimal element;
  `kuhn_munkres_min` returns an optimal assignment (`SolvesAssignment`); `BTreeMap`/`HashMap` are finite maps.
* Jet algorithms (`jetty`) are an arbitrary function of the list of momenta; hadron and neutrino tables are arbitrary
  predicates; angular distances in the photon isolation are an arbitrary function.
* Random numbers are arbitrary sequences; C27, C63 and C124 use the uniform distribution.
* Threads: any interleaving of single reads, lock acquisitions, writes and releases; sequentially consistent memory; one
  `RwLock` per event.
* Distances are a function of the events with the weights in the input, except for C112, where each evaluation can have any result.
* Command line: `clap` itself is not modelled, only the value parsers, the validation and the meaning of the options. The regex class `\d` is a
  parameter that contains the ASCII digits.
* C interface: memory is a map from addresses to bytes or words; allocation is not modelled.
* Shell completions: scripts are a parameter, directories can always be created.
* Log level: one global value, changed only by progress bars.

### What is not modelled

`src/formats.rs` beyond the enumeration, `src/c_api` wrappers that only forward calls, the VERSION and the text of log messages
(the numbers in messages of a run are modelled in `Model/Report.lean` and `Model/Categories.lean`),
the text of YAML files (values are modelled, see C126), `Display` of errors, `argfile`, the lz4/zstd/gzip/bzip2 encoders, panics of threads in
`rayon` (a panic in a task is shown not to happen for valid input), allocation failure.

## Plan per property

| id | modelled | proof |
|----|----------|-------|
| C01 | `Cell::resample`, concurrent resampler state machine (reads, locks, writes, releases) | every reachable memory is a sequence of averages; each average conserves each channel |
| C02 | `Cell::resample` (multiweight and single weight), `Weights` ops with panics | direct, induction over members |
| C03 | `Cell::new` over the neighbour list, combined with both searches | induction over the neighbour list |
| C04 | sequential `Resampler::resample` | invariant: processed seeds and all non-seeds are non-negative |
| C05 | concurrent state machine | false: concrete schedule; partial: holds for serial schedules |
| C06 | `Resampler::resample` closure | false at weight 0: witness; partial for positive weights |
| C07 | as C01 | convexity: an average does not increase the sum of a convex function |
| C08 | concurrent state machine | lock-order argument, plus a decreasing measure |
| C09 | concurrent state machine | mutual exclusion invariant; simulation by atomic averages |
| C10 | `build_tree`, `nearest_in_subtree` incl. cache and index bookkeeping, iterator | validity invariant of the flattened tree; pruning by triangle inequality; iterator induction |
| C11 | `NaiveNeighbourIter` | induction over candidates |
| C12 | both | two enumerations meeting the same specification agree |
| C13 | same search code over an arithmetic with infinity and NaN | false: witness, and for every sample with two groups; exact characterisation of what is found by induction over the tree (`Hidden`: outside of a vantage point with infinite radius). `Spec/InfiniteDistance.lean`, `Proofs/InfiniteDistance.lean`, `Props/InfiniteDistance.lean` |
| C14 | `build_tree` with depth | false: witness; partial: full depth; and soundness for any depth |
| C15 | `build_tree`, `par_build_tree`, `into_nodes_dist` | induction over depth |
| C16 | `select_seeds` | permutation + sortedness |
| C17 | as C01 with C10/C11 | only cell members are written |
| C18, C19 | `distance.rs` over the reals | minimum over permutations; padding lemma; Euclidean norm |
| C20 | `event.rs` builder, grouping, lookup | sorting and grouping invariants |
| C21-C24 | `partition.rs`, conversion from the tree (BFS), partition tool | index invariants, size recurrence; C22 and C24 false: witnesses |
| C25-C28 | `unweight.rs` with the random numbers as a list | algebra; C25, C28 false in corner cases: witnesses; C27 with Lebesgue measure |
| C29-C34 | `cres.rs` with a completion order as schedule | permutation arguments; C31, C32, C34 false: witnesses |
| C35-C37, C44 | byte-level readers: `init_source`, `read_raw`, iterator, `rewind` | induction over file contents; the specifications determine the split uniquely (`Cnn_unique`); false in corner cases (no event, marker at the end, no UTF-8): witnesses |
| C38-C41 | byte-level record updates and parsers (`hepmc2.rs`, `lhef.rs`, `stripper_xml.rs`, `parsing.rs`) | parser round trips over the bytes of a record |
| C42, C43, C45, C47, C49 | `CombinedFileIO`, `FileIO` over a file-system map | induction over files and records; C43, C45, C47, C49 false: witnesses |
| C46 | `detect_event_file_format` | decision logic; false for disabled LHEF and for long leading white space |
| C48 | record parsers with panics as values | false: witnesses; partial: exact panic-free conditions |
| C50-C53 | `cell_collector.rs`, observer | invariants over histories; C51, C53 false: witnesses |
| C54-C56 | option parsing and validation | decision logic for all inputs |
| C57, C58 | C API buffer and memory layout | arithmetic on buffers; C58 false: witness |
| C59 | `cluster.rs`, jet algorithm as parameter | partition of the particle list by role |
| C60 | `classify-events.rs` byte records | induction over records; output files are read again with the models of C35-C37; false for equal file names |
| C61 | log-level state machine | false on error paths: witness |
| C62 | `four_vector.rs` | induction over operations |
| C63 | random selection in `cell_collector.rs` | counting measure on the random choices; false after combining: witness |
| C64-C67 | byte-level parsers, `convert_ntuple` | grammar of records in `Spec/RecordText.lean`; every text in the grammar is parsed to the event it describes; C66 false without a blank: witness |
| C68 | `update_all_weights` followed by opening the outputs | what an event file is: `Spec/Reread.lean`; the shape of updated records (`Proofs/UpdateShape.lean`) shows that the outputs are again event files with the new weights; false for a closing tag directly after an LHEF weight: witness |
| C69 | `CombinedFileIO::new`, `Cres::run` with all components as put together in `cres_with_search` (`Model/Program.lean`) | `Run` relates files before and after to the events read and the weights passed on, for all schedules; composition of C10/C11/C13 (neighbours), C29 (reading), C01/C08 (resampling), C25/C26 (unweighting), C30 (weights to records) and C68 (files); false for events without particles: witness |
| C70 | `N64` operations with rounding in cells and resampling (`Model/Rounding.lean`) | error bounds for sums and means, composed over the serialised cells (C09); `fl64` is shown to round to a nearest `f64` |
| C71 | as C70; cells are built in order of distance and averaged in order of index | false: witness in binary64; partial: bound by rounding errors, by an invariant over the seeds |
| C72 | `Path::file_name`, `PathBuf::from_iter`, `run_main`, `build_from_files_iter` (`Model/Paths.lean`, `Model/Main.lean`) | lemmas on components of paths; a run changes only outputs: induction over files |
| C73 | names in `classify-events` (`Model/Paths.lean`) | as C72; false for ntuples: two witnesses |
| C74 | `run_main` (`Model/Main.lean`) | scan of files, then C72 and C69 |
| C75 | `cres_run` (`Model/Main.lean`, `Model/CApi.lean`) | as C74 with the options of the C API; case distinction for the return value |
| C76 | as C69 (`Model/Program.lean`) | C07 for the final state of any interleaving, C69 for what is written; sums over the records of all files |
| C77 | as C69; schedule of one thread (`serialSchedule`) | C05 for one thread, C81 for any distance without limit (`NoLimit`), and C69; for the default distance with C17, over real numbers (`Props/DefaultRun.lean`) |
| C78 | as C69 with `multiweight` and selected names | C39 for each record, C01 for all weights, C69; equal weights stay equal (`averageSeq_equal`) for a selected first weight. `Proofs/Named.lean`, `Props/Named.lean` |
| C79 | as C69 with rounded arithmetic | the model of complete runs is defined for any arithmetic; C70 for resampling, results of rounding are finite `f64` and can be written; for STRIPPER XML files the weights that are read back are `s * (w / s)` with two roundings (`Spec.stored`). `Spec/FloatRun.lean`, `Proofs/FloatRun.lean`, `Proofs/FloatXml.lean`, `Props/FloatRun.lean` |
| C80 | as C77 with rounded arithmetic | C71, C79 |
| C81 | as C10, C11 with rounded distances | false: five points on a line with coordinates up to 2⁵⁴; proved up to an error that does not grow with the depth of the tree (same induction as C10 with tolerances). `Proofs/SearchRounded.lean`, `Props/SearchRounded.lean` |
| C82 | as C69, for single events (`AsRead`, `FarFrom`) | the cells in C09 contain only seeds and their neighbours; C17. `Proofs/Written.lean`, `Props/Written.lean` |
| C83 | as C69, for single events | induction over the cells in C09: a mean of numbers that are at most b is at most b |
| C84 | `Model/Disk.lean`: buffered writers, write errors and interruptions (`Disk.Exec`); the list of operations on files in a run (`runOps`) | simulation between the list of operations and the run without buffers (`Trace`, `Ends`), invariant `Agree`: each output file is a first part of the complete one. `Proofs/Disk.lean`, `DiskTrace.lean`, `RunTrace.lean`, `Props/Crash.lean`, `Props/CrashMain.lean` |
| C85 | as C84 | as C84, and a concrete execution for the counterexample |
| C86 | as C84 | after opening all files in the beginning nothing depends on the earlier content of output files (`Proofs/Again.lean`) |
| C87 | readers and parsers as in C35–C37 and C64–C66 | induction over records of the file and its first part. `Proofs/Truncated.lean`, `Props/Truncated.lean` |
| C88 | whole program, as C69 | exact characterisation of what reading can return in terms of the events in all files, then the same schedule for both collections. `Spec/Layout.lean`, `Proofs/Layout.lean`, `Props/Layout.lean` |
| C89 | whole program, as C69 | every order of events in memory is possible (`C29_any_order`), so choose the one with the same events in the same places; induction over reachable states shows ids are only used to write weights. `Proofs/Reorder.lean`, `Proofs/Survivors.lean`, `Props/Layout.lean` |
| C90 | whole program, as C69 | the model is parametric in the type of numbers; every step of the resampler commutes with a map that respects operations and comparisons (`step_scale`), by induction for all reachable states, then for unweighting, reading and writing. `Spec/Scaled.lean`, `Proofs/Scaled.lean`, `Props/Scaled.lean` |
| C91 | `Unweighter::unweight` with `f64` rounding, parallel sums with any grouping | relative errors: sums of non-negative numbers have relative error growing with the number of additions (`sumsTo_near`), then all steps of unweighting (`unweight_near`). `Model/ParallelSum.lean`, `Spec/UnweightRounded.lean`, `Proofs/UnweightRounded.lean`, `Props/UnweightRounded.lean` |
| C92 | complete runs of `main` with all momenta changed by a function | simulation of complete runs; distances differ by an order isomorphism, so that naive and tree search find the same neighbours (`naiveNearest_convert`, `treeNearest_convert`) and resampling the same cells (`reachable_convert`); clustering commutes with the change (`cluster_moved`). Geometry of the distance function over the reals. `Spec/Moved.lean`, `Proofs/Moved.lean`, `Proofs/MovedRun.lean`, `Props/Moved.lean` |
| C93 | complete runs of `main` with and without minimum weight | both runs share reading and resampling; ids are used to relate entries before and after unweighting (`unweighted_entries`), C26 for the survivors, C25 for the sum; logging sums cannot fail in the run without minimum weight (`unweight_log`). `Spec/Unweighted.lean`, `Proofs/Unweighted.lean`, `Props/Unweighted.lean` |
| C94 | `classify` and `classifyAll` followed by the readers and parsers of cres, and by complete runs of `main` | the parsers do not look at what follows the last visible line (HepMC2, `HepMC.parse_stops`) or the last tag of an event (STRIPPER XML, `Stripper.parse_foot`), so moving the footer does not change events; splits of the output files from C60; C74 for each region. False for HepMC2 records ending with a blank line. `Spec/ClassifyRun.lean`, `Proofs/ClassifyHepMC.lean`, `Proofs/ClassifyStripper.lean`, `Props/ClassifyRun.lean` |
| C95 | `compress_writer`, `auto_decompress` and the operations on files of a run (`runOps`, C84), with arbitrary compression algorithms and arbitrary times at which data are passed on to files (`Model/Compressed.lean`) | invariant for each operation: a file contains a first part of what its encoder will have written, or all of it; if the first output file is open twice then both encoders write the same bytes. `Proofs/Compressed.lean`, `Props/Compressed.lean` |
| C96 | whole program, as C69 and C74, for arbitrary contents of files | each record takes at least one byte from the source (`Reader.readRaw_lt`, `nextLoop_unread`); measures for tasks (`readMeasure`, `totalMeasure`); an invariant about locks only, which holds for arbitrary weights (`Locks`), gives progress as in C08. `Proofs/Ends.lean`, `Proofs/EndsFiles.lean`, `Props/Ends.lean` |
| C97 | whole program, as C69 and C74, with two sets of settings (`Spec/Choices.lean`) | both searches give neighbour lists in the sense of C12, which are unique without ties; runs only depend on the neighbours of seeds (`step_congr_nearest`). `Proofs/Choices.lean`, `Props/Choices.lean` |
| C98 | runs on one thread (`OneThreadRun`), two runs with different orders of events in memory or in files | the positions of events are related by a permutation; neighbours, seeds and sequential resampling commute with it (`nearest_relabel`, `seeds_relabel`, `resampleAll_relabel`). `Proofs/Relabel.lean`, `Props/Determined.lean` |
| C99 | runs as computations with accesses to a shared file system, interleaved in any order (`Model/Together.lean`) | a run only reads and changes its own files (`Proc.Local`), so that its rest always gives the same result as alone (`together_local`); a computation that is alone has the results of the functions in the rest of the model (`*_run`). `Proofs/Together.lean`, `Proofs/TogetherRun.lean`, `Props/Together.lean` |
| C100 | input, runs and output as in C74; two groups of events that are farther from each other than the maximum size of cells (`Spec/Apart.lean`) | simulation in both directions: leaving out the steps of the tasks for the other group gives an execution for one group (`reachable_part`), and two executions can be put together (`reachable_both`), since neighbours and so all locks are in the same group (`nearest_isolated`). `Proofs/Project.lean`, `Proofs/Apart.lean`, `Props/Apart.lean` |
| C101 | input, runs and output as in C74, with named weights as in C78; the same files read with fewer names (`Spec/Select.lean`) | simulation in both directions: each step acts on the components of the weights in the same way, and depends only on central weights, so that leaving out components commutes with all steps (`step_keeping`, `resamples_keeping`); reading (`named_read_fewer`). `Proofs/Select.lean`, `Proofs/SelectNames.lean`, `Props/Select.lean` |
| C102 | options of `cres` and of the C interface and the settings made from them (`Model/CommandLine.lean`), runs as in C74 and C75 | case distinction for the options; without unweighting random numbers do not matter; all distances and radii in the tree are below the limit, so that no comparison with it fails (`nearest_maxDist`). `Proofs/Unlimited.lean`, `Props/CommandLine.lean` |
| C103 | the models of C69 | for each format, updating an updated record is the same as updating the original one (`Proofs/Overwrite.lean`); the bytes of output files as a function of records and weights (`run_contents`), the line with names is kept, so that output files can be read with the same selection of names; without negative weights all weights are kept (C82). `Props/Overwrite.lean` |
| C104 | `CombinedFileIO` and `Cres::run` with ntuple files (`Model/NTupleRun.lean`) | invariant for reading across files (`Ready`); records are converted on the main thread, so that the general theorems on reading (C29), resampling (C01, C07, C04) and the order of weights (C30) apply; updating file by file. `Spec/NTupleRun.lean`, `Proofs/NTupleRun.lean`, `Props/NTupleRun.lean` |
| C105 | `DefaultResampler::resample` and `Observer` with a cell collector (`Model/CollectorRun.lean`) | invariant: the collector holds numbered cells of a list of known cells; collecting appends a cell, combining concatenates the lists. `Spec/CollectorRun.lean`, `Proofs/CollectorRun.lean`, `Props/CollectorRun.lean` |
| C106 | messages on weights in `Cres::run` and `log_weight_sums` (`Model/Report.lean`) | sums over the events in memory are related to sums over events in files (C69, C76); with a fixed sum of weights the fraction is monotonic in the contribution of negative weights. `Spec/Report.lean`, `Props/Report.lean`; with unweighting and one weight per event: `Props/ReportUnweighted.lean` |
| C107 | messages on events in `Cres::run` and `log_multiplicities` (`Model/Categories.lean`) | invariant of the hash map: it contains each category once, with the number of events; the categories of events in memory are a permutation of those in the files; strictly sorted lists with the same elements are equal. `Spec/Categories.lean`, `Props/Categories.lean` |
| C108 | `FileIO` with objects of any module, `CombinedFileIO` on any files and `Cres::run` (`Model/MixedRun.lean`); the library for ROOT files is a pair of functions | invariant of the reader: the records still to be read, whatever the formats; per-file lemma from C68 and C104; events in memory as in C69 and C104. `Spec/MixedRun.lean`, `Proofs/MixedRun.lean`, `Props/MixedRun.lean`, `Props/MixedFar.lean` |
| C109 | as for C98, with all interleavings instead of one thread | invariant of parallel resampling: each task only touches its seed and its neighbours, so in the end the events near a seed have the weights after resampling this seed alone; relabelling of events as in C98. `Spec/Separate.lean`, `Proofs/Separate.lean`, `Proofs/SeparateRun.lean`, `Props/Separate.lean` |
| C110 | as for C109 | false in general (finding 37), counterexample with four events in a HepMC file. If seeds do not share neighbours: by C109 the negative weight left near a seed is the negative part of the sum over all events within the limit, which cannot increase with the limit. `Proofs/Limit.lean`, `Props/Limit.lean` |
| C111 | as for C74 (complete runs of the command line program), for all interleavings | the log of cells is a sequence of averages (C04); in each average the sum over members of (value - value at the seed) times the change of weight is bounded, and members are within the limit of the seed (C17). Translation from events in memory to events in files by their numbers. `Spec/Observable.lean`, `Proofs/Observable.lean`, `Props/Observable.lean` |
| C112 | parallel resampling with evaluations of distances as separate steps with arbitrary results (`Model/Varying.lean`), complete runs as in C69 | simulation: a run in which distances change is a run in which each seed has its own fixed distances, because each distance is evaluated at most once for a seed (`vreachable_fixed`); conversely runs with fixed distances can be made after evaluating all distances (`lift_reachable`). The results for runs with any neighbour search apply. `Proofs/Varying.lean`, `Props/Varying.lean` |
| C113 | complete runs on files of any format (`Model/MixedRun.lean`) and on text files (`Model/Program.lean`) | both programs run in lockstep as long as the input files are unchanged, which holds since only output files are written; the states of reading correspond under a map of the records. Without the feature, both agree on all files. `Spec/TextOnly.lean`, `Proofs/TextOnly.lean`, `Props/TextOnly.lean` |
| C114 | opening of all files in complete runs (`Model/MixedRun.lean`), scan for scales in the command line program (`Model/Main.lean`) | induction on the files that are opened before the one in question. `Spec/Unusable.lean`, `Props/Unusable.lean` |
| C115 | messages of the cell collector (`Model/CellInfo.lean`), combination of the collectors of all threads (`Model/CollectorRun.lean`) | from the invariants for C105, the order of keys in maps, counting of entries. `Spec/CellInfo.lean`, `Props/CellInfo.lean` |
| C116 | builders of resamplers (`Model/Builders.lean`), options of both programs (`Model/CommandLine.lean`) | induction on the calls from the last one on. `Spec/Builders.lean`, `Props/Builders.lean` |
| C117 | program for shell completions (`Model/Completion.lean`) | false: witness for bash, all environments for fish; what remains is proved from lemmas on paths (C53). `Spec/Completion.lean`, `Props/Completion.lean` |
| C118 | what observers can ask a cell for (`Model/CellView.lean`) on top of the interleavings of C05 | radius: invariant over reachable states; sum of weights: false, counterexample from C05; one cell after the other: from C02 and C03. `Props/CellView.lean` |
| C119 | calls of the C interface in several threads (`Model/CErrors.lean`) | induction over the history of calls, C57 for the buffer. `Spec/CErrors.lean`, `Props/CErrors.lean` |
| C120 | expected number of events and memory for them (`Model/Capacity.lean`); this step is not part of the model of complete runs | 64-bit sums of declared numbers by induction over files; records: induction over the reader of C49. `Props/Capacity.lean` |
| C121 | distance functions of the two examples (`Model/ExampleDistance.lean`), for C with the event views of C58 | induction over particle types; triangle inequality term by term. `Spec/ExampleDistance.lean`, `Props/ExampleDistance.lean` |
| C122 | derived comparisons of events (`Model/EventOrder.lean`) | lexicographic combinations of total orders are total orders; canonical form of events. `Props/EventOrder.lean` |
| C123 | `take_chars` on bytes (`Model/Excerpt.lean`) | induction over characters with the state machine for UTF-8. `Spec/Excerpt.lean`, `Props/Excerpt.lean` |
| C124 | `Unweighter::unweight` with independent uniform random numbers | false: integral over two random numbers; partial: each weight before the final rescaling depends on one random number, linearity of the integral. `Spec/Bias.lean`, `Props/Bias.lean` |
| C125 | `makePartition` and `VPTreePartition::region` | false with ties: root radius is the common distance; partial: induction on the levels of the tree, counting events on the wrong side of a split (vantage point and events at the radius). `Props/Balance.lean` |
| C126 | derived `Serialize` and `Deserialize` for the types in partition files, as maps to and from values; writing with `compress_writer` and reading without decompression; YAML text is a parameter | false with compression: compressed data are not YAML text; partial: each conversion is inverted, by cases and induction on lists. `Model/PartitionFile.lean`, `Props/PartitionFile.lean` |
| C127 | `classify_ntuple_records` on records of any type | induction on the records. `Model/ClassifyNTuple.lean`, `Props/ClassifyNTuple.lean` |
| C128 | executions of `classify_byte_records` with buffered writers, write errors and interruptions | invariant for the data accepted for each file (file followed by buffer); an execution that loses everything as counterexample. `Model/ClassifyDisk.lean`, `Props/ClassifyDisk.lean` |
| C129 | `main` of `cres-partition` after reading the options, with reading and clustering of single records as parameters | loops over files and records related to a specification of the contributing events by induction. `Model/PartitionRun.lean`, `Props/PartitionRun.lean` |
| C130 | the loop of `cres-classify-events` over files that are read from the same file system to which output files are written | induction on input files, with the set of files that can change; counterexample with two files. `Model/ClassifyInPlace.lean`, `Props/ClassifyInPlace.lean` |
| C131 | as for C07 and C76, for all convex functions | Jensen's inequality for each cell, and the sequence of averages equivalent to an execution. `Props/Convex.lean` |
| C132 | `euclDistance` (as for C06) | contributions are compared pair by pair for an optimal pairing of each type. `Props/Similar.lean` |
| C133 | complete runs (as for C74) with `euclDistance` | C132 for events within a cell, C111 for the sums, and an invariant of the readers for momenta. `Proofs/ReadMomenta.lean`, `Props/Histogram.lean` |
| C134 | complete runs (as for C74) | Jensen's inequality for each cell with the value of the observable as a factor. `Props/BinUncertainty.lean` |
| C135 | complete runs (as for C74) | False: a run with a limit for the size of cells. Otherwise C131 and C82 for all interleavings, and C77 for one thread without limit. `Props/SignFlip.lean` |
| C136 | two complete runs (as for C74), the second one on the output of the first one | The sum of weights of events with particles is preserved for all interleavings, then C77. `Props/SecondRun.lean` |
| C137 | `FileIO` for one file (`Model/FileIO.lean`) | Induction on the records that are read, as for C42. False for LHEF with more weights than records. `Props/OneFile.lean` |

## Findings

Disagreements between code and property found while reading; each is backed by a theorem named in `MANIFEST.json` unless marked
(not formalised).

1. `CellCollector::combine` keeps the ten *smallest* cells (C51); the randomly selected cells are not uniform after combining,
   and the first ten cells are not merged (C63).
2. `cres-partition` accepts inputs (e.g. 4 events, 4 regions) on which the conversion to a partition panics (C22).
3. A seed whose weight became exactly zero is not ignored; in debug builds it trips an assertion (C06).
4. A race between building a cell and resampling lets negative weights survive (C05).
5. With the `multiweight` feature, events discarded by unweighting are written with their original weight (C32);
   without it, events without identified particles get weight zero (C31).
6. Unweighting does not preserve the sum if all events are discarded and can flip signs (C25, C28).
7. `CombinedFileIO::update_next_weights` panics after the last record; it never returns `Ok(false)` unless there are no files (C43).
8. `ntuple::FileIO::update_all_weights` panics when there are as many weights as records; weight names the format does not
   have are ignored (not formalised).
9. STRIPPER XML `rewind` does not reset the remaining-record counter (C49); `build_from_files` cannot open STRIPPER files,
   since it knows no scaling (not formalised); without a normalisation file entry the scale is negative (C41).
10. HepMC2 files without events lose their last byte, STRIPPER XML files without events their last three; a file ending in the
    marker of a record loses it (C35, C37). Updating a record normalises white space around the weight (C38, C40) and, with
    named weights, drops what follows the weights on the line (C39).
11. LHEF records with fewer than two particles and HepMC2 records without weights panic; so do records that are not UTF-8 and
    several truncated records (C48).
12. Infinite distances make the tree search miss neighbours (C13); depth-limited trees too (C14).
13. Input and output path coinciding truncates the input; two inputs with the same file name share an output, in cres and in
    `cres-classify-events` (C45, C60).
14. The C event view's `weights` pointer points to the box, not to the weights (C58).
15. The order in which events reach the unweighter depends on the schedule, so runs with a fixed seed differ (C34).
16. `cres-make-partition` does not validate its options (C54).
17. `event_cells` maps event ids to cell numbers, opposite to its documentation (C53).
18. An error while reading leaves logging switched off if a progress bar was active (C61).
19. Without the `lhef` feature an LHEF file is read as HepMC2; XML after more white space than fits the first buffer too (C46).
20. `cres-classify-events` does not adjust the number of events in STRIPPER headers (visible in `C60_stripper_reread`).
21. An isolation radius of zero still subtracts the photon's momentum from the empty cone (not formalised); `is_parton` accepts
    the id 0 (visible in the model of C59).
22. A write error when the buffered writer is dropped is lost: there is no explicit flush (not formalised).
23. Reading STRIPPER XML drops the character after the tag of a particle: without a blank there the first digit of the energy is
    lost (C66).
24. Updating an LHEF record in which `</event>` follows the weight without white space removes the tag together with the old
    weight; the output file has then no complete event (`C68_violated`).
25. The sum of weights in `Cell::new` is formed in the order of the distance from the seed, the one in `Cell::resample` in the
    order of events. With `f64` they can differ in sign: a cell considered complete with sum 0 gets a negative average. The
    negative weights that are left are of the size of rounding errors (C71).
26. `classify-events` uses the whole path of an ntuple as its name: for an absolute path the output is written next to the input
    file instead of the output directory, and for `./x.root` it is `.0./x.root` in the output directory (C73). Two input files
    whose names differ only by a dot at the end have the same outputs.
27. Paths without file name, like `..`, make `cres` and `cres_run` panic before anything is written (C72).
28. Selected weights of HepMC2 records are kept in the order of the names in each record and combined by position. If the order
    differs between records, weights with different names are averaged (`C78_violated`).
29. Rounding in the tree search can hide neighbours (C81): of points at -100, 3, 6, 1 and 2⁵⁴ on a line, the search around 3 with
    maximum distance 3 finds the point at 6, but not the one at 1, because the distances of 3 and 1 from 2⁵⁴ are rounded to
    numbers that differ by 4. The error is at most 2⁻⁵⁰ times the largest distance.
30. Errors when the end of an output file is written are ignored (C85): writers are dropped without calling `flush`, so if the disk
    is full, a run can succeed although up to 8192 bytes at the end of each output file are missing.
31. Truncated files are not recognised (C87): in a HepMC2 file that ends within the weight of an event, the weight is read as the
    number formed by the digits that are left. Together with 30, a run on the output of a run that "succeeded" on a full disk
    gives wrong results without any error.
32. The distances in `examples/user_distance.rs` and `examples/user_distance.c` are infinite for events with different particle
    content. With such a distance, events are lost as neighbours in every sample with two groups, and half of all events if no
    group contains more than half of them (C13): the search computes infinity minus infinity, which is NaN, and compares it with
    the maximum distance (`src/vptree.rs:389-393`).
33. `examples/user_distance.rs` computes the distance of two events with the same particle content and then returns zero
    (`examples/user_distance.rs:38`). So its distances are zero or infinity. (Examples are not modelled.)
34. A HepMC2 file with a blank line at the end of an event can be read by cres, but `cres-classify-events` writes the footer
    after the blank line if this event is the last one of a region (`src/bin/classify-events.rs:210-225`), and cres rejects the
    resulting file: the footer is only ignored on the line that ends an event (`src/hepmc2.rs:295-301`) (C94).
35. A cell collector that is used for a second resampling counts the earlier cells once for each thread that creates cells
    (C105), because each thread starts with a copy of the collector and the copies are added.
36. If the sum of weights is negative, the fraction of negative weights that is reported in the end can be larger than the one
    reported at the beginning (C106).
37. A larger maximum cell size can leave more negative weight, also on one thread: larger cells can take positive weight from
    others that need it (C110). The help for `--max-cell-size` only mentions negative weights that are left because of a limit.
38. A distance function that is used through the C interface gets a pointer to the weights (`src/c_api/distance.rs:39-65`) and can read
    them while other threads change them, because the lock is not taken. Also on one thread, distances for later seeds
    are computed with weights that were already changed (C112).
39. Output files are created one after the other while input files are opened. If a later input file is missing or has an unsupported format,
    results of an earlier run in the output files for the input files before it are already lost (example for C114).
40. The completion script for `fish` is called `cres,fish` (`src/bin/shell_completion.rs:146`), so `fish` never finds it. The one for `bash` is written to
    the wrong directory if `XDG_DATA_HOME` is set (`completions` is missing, `:117-121`), and `BASH_COMPLETION_USER_DIR` is never used
    because of the dollar sign in its name (`:114`) (C117).
41. With several threads, `weight_sum()` of a cell need not be the sum of the weights of its members when an observer is called, so the log message for the cell
    and the number of cells with negative weights can be wrong (C118).
42. If no call has failed, `cres_get_last_err` returns 0 and does not write to the buffer (`src/c_api/error.rs:73-75`), not even a zero byte, although 0 is documented as
    success (C57, C119).
43. Memory for the number of records that STRIPPER XML files declare is allocated before reading (`src/cres.rs:241`). A too large number in a header leads to a panic
    (capacity overflow) or ends the process although the file is small (C120). Complete runs are modelled without this
    step, so theorems on complete runs assume that the memory is there.
44. The distance in `examples/user_distance.rs` returns 0 instead of the sum it has calculated (line 38), so all events with the same particle types are at
    distance 0 (C121). The C example sets `opt.outfile` (`examples/user_distance.c:61`), which is not a member of `Opt`
    (`src/c_api/cres.rs:34-35`).
45. The final rescaling in unweighting (`src/unweight.rs:65-71`), which preserves the sum of weights exactly, introduces a bias: events with small weights
    contribute less than before on average (C124). Without it predictions would be unbiased.
46. Events at exactly the radius of a bisection count as inside when they are classified, but half of them may be outside when the partition is made. With many equal
    distances, regions can be very uneven: in the extreme case all events are in one region (C125). The median event itself is always
    classified as inside although it was sorted to the outside.
47. `cres-partition` has an option to compress the partition file (`src/bin/opt_partition.rs:37-42`), but `cres-classify-events` reads the file without decompressing
    it (`src/bin/classify-events.rs:50-54`) and fails (C126). Besides, a build with `multiweight` cannot read partition files written by a build
    without it, and vice versa, although the weights are not used for classification.
48. `cres-classify-events` only logs errors when it writes footers (`src/bin/classify-events.rs:147-151`) and never flushes its buffers, so that errors when they are
    emptied at the end are ignored. If the disk is full, it can report success although output files are incomplete or empty (C128).
49. If the output directory of `cres-classify-events` contains input files, some of them can be overwritten before they are read: output for region 0 of `a.x` goes to `a.0.x`.
    This happens for example if the program is run twice with `*.x` in the same directory. The events of the overwritten file are lost (C130).
50. (C135) With a limit for the size of cells, events with positive weight can get negative weights. If the weights in a cell have a negative sum when the
    limit is reached, the mean is still assigned to all events in the cell (`src/resampler.rs`, `src/cell.rs`). The sum of negative weights does not become
    more negative (C76), but the number of events with negative weight can increase.
51. (C137) If an object for a single Les Houches Event File is given more weights than there are events, `update_all_weights` returns early and does not
    write the end tag (`src/lhef.rs:283-288`). Objects for several files, which the programs use, are not affected (C42).
