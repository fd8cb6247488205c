{"id": "C01", "title": "Resampling conserves every weight sum", "statement": "For any sample given to Resample::resample, the sum over all events of the central weight, and of every additional named weight, is the same before and after, whatever cells were formed and in whatever order or interleaving the cells were processed (exact arithmetic).", "quantifier": "all samples, all distance functions, all neighbour searches, all seed orders, all thread interleavings, all numbers of weights per event", "why_tests_cant": "Conservation has to survive every overlap pattern of cells and every interleaving; a test sees a handful of samples and schedules.", "anchors": ["src/resampler.rs:Resampler::resample", "src/cell.rs:Cell::resample"]}
{"id": "C02", "title": "Resampling a cell replaces all member weights by the cell mean and touches nothing else", "statement": "After Cell::resample every member event carries, for every weight, the arithmetic mean of the members' previous weights; every event that is not a member keeps its weights; the number of weights per event does not change.", "quantifier": "all event lists, all cells with at least one member, all numbers of weights", "why_tests_cant": "The statement is about every member list and weight vector.", "anchors": ["src/cell.rs:Cell::resample", "src/event.rs:Weights"]}
{"id": "C03", "title": "A cell is the seed plus the shortest prefix of its nearest neighbours that makes the weight sum non-negative", "statement": "Cell::new(events, seed, search) contains the seed and then the neighbours in search order; it stops right after the first neighbour that makes the accumulated central weight non-negative, and otherwise contains all neighbours the search offers. weight_sum() is the sum of the members' central weights, radius() is the largest seed distance of any member (0 for the seed alone) and never exceeds max_cell_size; no event occurs twice.", "quantifier": "all samples, seeds, metrics and cell size limits", "why_tests_cant": "Depends on the complete order of neighbours and partial sums.", "anchors": ["src/cell.rs:Cell::new", "src/neighbour_search.rs"]}
{"id": "C04", "title": "One-at-a-time resampling without cell size limit removes every negative weight", "statement": "If the total weight of the sample is non-negative, no maximum cell size is set and cells are processed one after the other (one thread), then no event has a negative central weight afterwards, for every seed order that contains each negative-weight event.", "quantifier": "all samples with non-negative total weight, all metrics, both neighbour searches, all seed orders", "why_tests_cant": "Requires an invariant over the whole sequence of overlapping cells.", "anchors": ["src/resampler.rs:Resampler::resample", "src/cell.rs"]}
{"id": "C05", "title": "Parallel resampling without cell size limit removes every negative weight", "statement": "The guarantee of C04 for any number of threads: if the total weight is non-negative and no cell size limit is set, no event has a negative central weight afterwards.", "quantifier": "all samples with non-negative total weight, all interleavings of cell construction and cell resampling", "why_tests_cant": "The failing interleavings are rare races between building a cell and another thread resampling its members.", "anchors": ["src/resampler.rs:Resampler::resample", "src/cell.rs:Cell::new", "src/cell.rs:Cell::resample"]}
{"id": "C06", "title": "Seeds with non-negative weight are ignored", "statement": "As documented on Resampler::resample, a seed whose current weight is non-negative when its turn comes creates no cell and changes no weight.", "quantifier": "all samples, all seeds, all histories of earlier cells", "why_tests_cant": "The boundary (weight exactly zero after an earlier cell) depends on the history.", "anchors": ["src/resampler.rs:Resampler::resample", "src/cell.rs:Cell::new"]}
{"id": "C07", "title": "Resampling never increases the negative-weight contribution", "statement": "For every run of the resampler, with any interleaving and any cell size limit, the summed absolute value of negative central weights, the sum of |w| and the sum of w^2 after resampling are at most their values before.", "quantifier": "all samples, metrics, cell size limits, interleavings", "why_tests_cant": "Monotonicity over arbitrary sequences of averages.", "anchors": ["src/resampler.rs:Resampler::resample", "src/cell.rs:Cell::resample"]}
{"id": "C08", "title": "Parallel resampling cannot deadlock", "statement": "In every reachable state of parallel resampling with unfinished cells, at least one started cell can take its next step (read a weight, take the next lock, write or release); hence every run ends after finitely many steps.", "quantifier": "all samples, any number of concurrently processed seeds, all interleavings", "why_tests_cant": "A deadlock needs one specific interleaving of lock acquisitions.", "anchors": ["src/cell.rs:Cell::resample", "src/cell.rs:Cell::write_lock_weights"]}
{"id": "C09", "title": "Concurrent cell resampling is equivalent to some one-at-a-time order", "statement": "Whatever the interleaving, two cells never hold the write lock of the same event at once, a weight is never read while another cell is rewriting it, and the final weights are those obtained by averaging the constructed cells one after the other in the order in which they completed locking.", "quantifier": "all interleavings at the granularity of single weight reads, lock acquisitions, weight writes and lock releases", "why_tests_cant": "Atomicity is a statement about all schedules.", "anchors": ["src/cell.rs:Cell::resample", "src/event.rs:Event::weights"]}
{"id": "C10", "title": "Vantage-point tree search enumerates neighbours exactly", "statement": "For a symmetric distance obeying the triangle inequality, iterating VPTree::nearest_in(q) to the end yields every stored point other than q whose distance is at most max_dist, each exactly once, with its true distance, in non-decreasing order of distance, and nothing else.", "quantifier": "all point sets, all queries, all symmetric distances with triangle inequality, all max_dist, all tie-breakings of the unstable sorts", "why_tests_cant": "Pruning errors show only for special geometric configurations.", "anchors": ["src/vptree.rs:VPTree::nearest_in", "src/vptree.rs:NearestNeighbourIter", "src/neighbour_search.rs:TreeSearch"]}
{"id": "C11", "title": "Naive search enumerates neighbours exactly", "statement": "For any distance function whatsoever, NaiveNeighbourSearch yields every index other than the query with distance at most max_dist, each exactly once, with its distance, in non-decreasing order.", "quantifier": "all numbers of points, all distance functions, all queries, all max_dist, all tie-breakings of the parallel minimum", "why_tests_cant": "Universal over inputs and tie-breaking.", "anchors": ["src/neighbour_search.rs:NaiveNeighbourIter", "src/neighbour_search.rs:NaiveNeighbourSearch"]}
{"id": "C12", "title": "Tree and naive search are interchangeable", "statement": "For the same metric, points, query and max_dist both searches yield the same number of neighbours at the same sequence of distances; if no two candidate distances from the query coincide they yield the same sequence of neighbours, and hence the same cell.", "quantifier": "all point sets, metrics, queries, max_dist", "why_tests_cant": "Agreement must hold for every input.", "anchors": ["src/neighbour_search.rs", "src/vptree.rs"]}
{"id": "C13", "title": "Neighbour search also works for distances that can be infinite", "statement": "The examples shipped with cres use distance functions returning infinity for incompatible events. For such an extended metric the tree search still yields every other point at finite distance within max_dist.", "quantifier": "all point sets and all extended metrics", "why_tests_cant": "Only certain tree shapes trigger infinity minus infinity.", "anchors": ["src/vptree.rs:nearest_in_subtree", "examples/user_distance.rs", "examples/user_distance.c"]}
{"id": "C14", "title": "Nearest-neighbour search on a depth-limited tree is complete", "statement": "VPTree::from_iter_with_dist_and_depth is public and returns a VPTree; nearest_in on it yields every stored point within max_dist.", "quantifier": "all point sets and depths", "why_tests_cant": "Universal over depth and points.", "anchors": ["src/vptree.rs:from_iter_with_dist_and_depth", "src/vptree.rs:nearest_in"]}
{"id": "C15", "title": "Tree construction neither loses nor invents points and separates inside from outside", "statement": "Sequential and parallel construction, with any depth and any resolution of ties in the unstable sorts, return a tree whose points are a permutation of the input; for each inner node the inside points have distance at most the stored radius, the outside points at least that, sizes differ by at most one, and the stored offset is within the slice, so that searching never panics.", "quantifier": "all point lists, distance functions, depths and sort tie-breakings; sequential and parallel construction", "why_tests_cant": "Structural invariant of a recursive in-place algorithm.", "anchors": ["src/vptree.rs:build_tree", "src/vptree.rs:par_build_tree", "src/vptree.rs:into_nodes_dist"]}
{"id": "C16", "title": "Seed selection returns exactly the negative-weight events in the order of the strategy", "statement": "StrategicSelector::select_seeds returns each index with negative weight exactly once and no other index; ascending by weight for MostNegative, descending by weight for LeastNegative, and in input order for Next.", "quantifier": "all samples, all strategies, all tie-breakings", "why_tests_cant": "Universal over samples.", "anchors": ["src/seeds.rs:StrategicSelector::select_seeds"]}
{"id": "C17", "title": "Weights are only moved between events within the cell size limit", "statement": "Every event whose weights change lies, together with all events it exchanged weight with in one cell, within max_cell_size of one common negative-weight seed; an event further than max_cell_size from every seed keeps its weights. This holds for all interleavings.", "quantifier": "all samples, metrics, limits, interleavings", "why_tests_cant": "Universal over runs.", "anchors": ["src/resampler.rs", "src/cell.rs", "src/neighbour_search.rs"]}
{"id": "C18", "title": "The default event distance is a pseudometric", "statement": "EuclWithScaledPt::distance is non-negative, zero between an event and itself, symmetric and obeys the triangle inequality for all events and all pt_weight, including events with different particle types and multiplicities (exact arithmetic).", "quantifier": "all triples of events, all multiplicities and particle types, all real momenta, all pt_weight", "why_tests_cant": "Triangle inequality over triples with different multiplicities and code paths (1, 2-3, >=4 particles).", "anchors": ["src/distance.rs:EuclWithScaledPt"]}
{"id": "C19", "title": "The default event distance is the sum over particle types of the cheapest pairing", "statement": "The distance equals the sum, over all particle types in either event, of the minimum over all one-to-one pairings of the two momentum sets (the smaller padded with zero momenta) of the summed pair distances, for every multiplicity; it does not depend on the order in which particles were added.", "quantifier": "all pairs of events, all multiplicities", "why_tests_cant": "Three different code paths by multiplicity; permutation enumeration.", "anchors": ["src/distance.rs:min_paired_distance", "src/distance.rs:EuclWithScaledPt::distance"]}
{"id": "C20", "title": "Events are stored in canonical form", "statement": "EventBuilder::build groups the added particles by type: outgoing() lists each type once, strictly descending, with exactly the momenta added for that type; the result is the same for every order of add_outgoing calls; outgoing_with_pid(t) returns exactly the momenta of type t.", "quantifier": "all sequences of add_outgoing calls, all particle ids", "why_tests_cant": "Order independence is a statement over all permutations.", "anchors": ["src/event.rs:EventBuilder::build", "src/event.rs:compress_outgoing", "src/event.rs:Event::outgoing_with_pid"]}
{"id": "C21", "title": "Every event is assigned to exactly one existing region", "statement": "VPTreePartition::region(p) terminates and returns a value in 0..len() for every partition and every point.", "quantifier": "all partitions with 2^n-1 bisections, all points, any distance function", "why_tests_cant": "Index arithmetic for every tree size.", "anchors": ["src/partition.rs:VPTreePartition::region", "src/partition.rs:VPTreePartition::len"]}
{"id": "C22", "title": "cres-partition delivers the requested number of regions whenever it accepts the input", "statement": "If the requested number of regions N is a power of two and at least N negative-weight events were read, the tool produces a partition with exactly N regions.", "quantifier": "all N = 2^k and all numbers of events n >= N", "why_tests_cant": "The failing sizes are a narrow band n in [N, 3N/2-1).", "anchors": ["src/bin/partition.rs:main", "src/vptree.rs:From<VPTree> for VPTreePartition", "src/partition.rs:from_vp"]}
{"id": "C23", "title": "Converting a tree to a partition keeps the tree structure", "statement": "In the bisection list obtained from a vantage-point tree, the bisections at 2n+1 and 2n+2 are the inside and outside children of bisection n, each with vantage point and radius of the tree node, and no vantage point occurs twice, so cres-partition never stores an emptied event.", "quantifier": "all trees with complete top levels, all depths", "why_tests_cant": "Breadth-first queue order for every depth.", "anchors": ["src/vptree.rs:From<VPTree> for VPTreePartition", "src/bin/partition.rs:main"]}
{"id": "C24", "title": "Partition bisections separate inside from outside strictly", "statement": "As required by the safety contract of VPTreePartition::from_vp, the inside child of a bisection has distance less than r and the outside child has distance larger than r.", "quantifier": "all trees built by the constructors, all metrics", "why_tests_cant": "Fails only for ties.", "anchors": ["src/partition.rs:from_vp", "src/vptree.rs:build_tree"]}
{"id": "C25", "title": "Unweighting preserves the total weight exactly", "statement": "Unweighter::unweight returns a sample whose summed central weight equals that of its input, for every random sequence.", "quantifier": "all samples, thresholds and random number sequences", "why_tests_cant": "Depends on which events survive.", "anchors": ["src/unweight.rs:Unweighter::unweight"]}
{"id": "C26", "title": "Unweighting only rescales surviving events and keeps every large-weight event", "statement": "Events with |w| above the threshold always survive, events with weight zero never do; each survivor below the threshold is brought to |w| = min_wt times one common factor, survivors above to w times the same factor; all weights of one event are multiplied by one factor; the order and the ids of survivors are unchanged; with threshold 0 or no events the input is returned unchanged.", "quantifier": "all samples, thresholds, random sequences", "why_tests_cant": "Universal over random sequences.", "anchors": ["src/unweight.rs:Unweighter::unweight", "src/event.rs:Event::rescale_weights"]}
{"id": "C27", "title": "Unweighting keeps an event with probability |w|/min_wt", "statement": "For a uniform random number in [0, min_wt) an event with 0 <= |w| <= min_wt survives with probability |w|/min_wt, so that its expected weight before the global rescaling is w.", "quantifier": "all weights and thresholds", "why_tests_cant": "A probability cannot be established by sampling.", "anchors": ["src/unweight.rs:Unweighter::unweight"]}
{"id": "C28", "title": "Unweighting never flips the sign of a weight", "statement": "A surviving event has a weight of the same sign after unweighting as before.", "quantifier": "all samples, thresholds, random sequences", "why_tests_cant": "Needs a rare random sequence leaving a negative sum.", "anchors": ["src/unweight.rs:Unweighter::unweight"]}
{"id": "C29", "title": "Reading events assigns ids by position for every schedule", "statement": "Cres::run's reading phase yields, for n readable and convertible records, exactly n events, the one with id i being the conversion of the i-th record, regardless of the order in which conversion tasks finish; it fails iff some record cannot be read, converted or clustered or carries a non-zero id.", "quantifier": "all inputs, all completion orders of the conversion tasks", "why_tests_cant": "Depends on the schedule.", "anchors": ["src/cres.rs:Cres::read_events"]}
{"id": "C30", "title": "Cres::run passes each record its own event's final weights", "statement": "The i-th weight entry handed to UpdateWeights::update_all_weights is the final weight vector of the event read from record i if that event survived, and the default weight vector otherwise (empty with the feature multiweight, a single zero without); the number of entries equals the number of records. No index is out of range.", "quantifier": "all inputs, all resamplers/unweighters that return a sub-collection of the events they were given, all schedules", "why_tests_cant": "Universal over schedules and permutations.", "anchors": ["src/cres.rs:Cres::run"]}
{"id": "C31", "title": "Events without identified particles pass through unchanged", "statement": "An event without outgoing particles after clustering is excluded from resampling and its record is written with its original weight.", "quantifier": "all inputs, both feature configurations", "why_tests_cant": "Depends on feature configuration and data.", "anchors": ["src/cres.rs:Cres::run", "src/event.rs:Weights", "src/hepmc2.rs:update_next_weights_helper"]}
{"id": "C32", "title": "Events discarded by unweighting do not contribute to the output", "statement": "After a run with --minweight the records of events discarded by the unweighter carry no weight in the output (they are dropped or written with weight zero).", "quantifier": "all inputs and random sequences, both feature configurations", "why_tests_cant": "Depends on random sequence and feature configuration.", "anchors": ["src/cres.rs:Cres::run", "src/unweight.rs", "src/hepmc2.rs:update_next_weights_helper"]}
{"id": "C33", "title": "The total weight of the output files equals that of the input files", "statement": "After Cres::run without unweighting the sum of central weights over all output records equals the sum over all input records, for every schedule.", "quantifier": "all inputs and schedules", "why_tests_cant": "End-to-end conservation.", "anchors": ["src/cres.rs:Cres::run"]}
{"id": "C34", "title": "A run is reproducible for a fixed seed", "statement": "Two runs on the same input with the same options and the same --seed give the same output weights.", "quantifier": "all inputs, all pairs of schedules", "why_tests_cant": "Needs two different schedules.", "anchors": ["src/cres.rs:Cres::read_events", "src/cres.rs:Cres::run", "src/unweight.rs"]}
{"id": "C35", "title": "HepMC2 splitting is lossless", "statement": "For a HepMC2 file with at least one event line, the header followed by the records returned by the reader is byte for byte the file content, each record starts with 'E' and contains exactly one line starting with 'E'; a file written with the original weights untouched is identical to the input.", "quantifier": "all byte strings", "why_tests_cant": "Universal over file contents (chunk boundaries at every 'E').", "anchors": ["src/hepmc2.rs:init_source", "src/hepmc2.rs:FileReader::read_raw"]}
{"id": "C36", "title": "LHEF splitting is lossless up to the closing tag", "statement": "For an LHEF file the header followed by all records is a prefix of the file, the remainder contains no complete event, every record ends with </event> and contains it once; rewriting gives header, records and one closing tag.", "quantifier": "all byte strings", "why_tests_cant": "Universal over file contents.", "anchors": ["src/lhef.rs:init_source", "src/lhef.rs:FileReader::read_raw", "src/lhef.rs:finish_weight_update"]}
{"id": "C37", "title": "STRIPPER XML splitting is lossless", "statement": "For a STRIPPER XML file with at least one <se tag, header followed by records is the file content, each record starts with <se and contains it once.", "quantifier": "all byte strings", "why_tests_cant": "Universal over file contents.", "anchors": ["src/stripper_xml.rs:init_source", "src/stripper_xml.rs:FileReader::read_raw"]}
{"id": "C38", "title": "Updating a HepMC2 record changes exactly the central weight", "statement": "Parsing a record after its central weight was updated to w gives the same particles, units and further weights and the central weight w; all bytes outside the weight entry are unchanged.", "quantifier": "all parseable records, all weights", "why_tests_cant": "Universal over record layouts (spacing, random states, number of weights).", "anchors": ["src/hepmc2.rs:update_central_weight", "src/hepmc2.rs:parse_hepmc", "src/hepmc2.rs:update_next_weights_helper"]}
{"id": "C39", "title": "Updating named HepMC2 weights writes each weight to its own name", "statement": "With names selected by --weights, after the update the k-th selected weight is found under the same name from which it was read, all unselected weights are unchanged, and re-parsing returns exactly the updated weight vector.", "quantifier": "all records, all sets of selected names", "why_tests_cant": "Order of names in record versus selection.", "anchors": ["src/hepmc2.rs:update_named_weights", "src/hepmc2.rs:parse_weight_names_line"]}
{"id": "C40", "title": "Updating an LHEF record changes exactly XWGTUP", "statement": "Parsing an LHEF record after updating its weight to w gives the same particles and weight w; all bytes outside the weight entry are unchanged.", "quantifier": "all parseable records, all weights", "why_tests_cant": "Universal over record layouts.", "anchors": ["src/lhef.rs:update_next_weights_helper", "src/lhef.rs:parse_lhef", "src/hepmc2.rs:update_central_weight"]}
{"id": "C41", "title": "STRIPPER XML weights are scaled on reading and unscaled on writing", "statement": "The weight seen by the resampler is the file weight times the channel's cross section divided by its total number of events; writing a weight w stores w divided by that scale, so that an unchanged weight is written back unchanged; all other bytes are unchanged.", "quantifier": "all records, all sets of input files and channels, all file orders", "why_tests_cant": "Universal over files and orders.", "anchors": ["src/stripper_xml.rs:rescale_weight", "src/stripper_xml.rs:update_next_weights_helper", "src/stripper_xml.rs:extract_scaling"]}
{"id": "C42", "title": "Combined I/O reads all files in order and writes each record to its own file", "statement": "CombinedFileIO yields the records of all files in order; update_all_weights with one entry per record writes to the output belonging to the j-th input that file's header and records, the k-th record overall receiving weights[k]; it returns the number of records written.", "quantifier": "all numbers of files, all numbers of records per file (including none)", "why_tests_cant": "Universal over file lists.", "anchors": ["src/io.rs:CombinedFileIO"]}
{"id": "C43", "title": "CombinedFileIO::update_next_weights signals the end with Ok(false)", "statement": "After the last record has been updated, a further update_next_weights call returns Ok(false).", "quantifier": "all file lists, all call histories", "why_tests_cant": "Only at the very end of the call history.", "anchors": ["src/io.rs:CombinedFileIO::update_next_weights"]}
{"id": "C44", "title": "Rewinding restarts reading from the first record", "statement": "After rewind(), reading yields the same records as a fresh reader, for every reader and after any number of reads.", "quantifier": "all files, all call histories", "why_tests_cant": "Universal over histories.", "anchors": ["src/hepmc2.rs:rewind", "src/lhef.rs:rewind", "src/stripper_xml.rs:rewind", "src/io.rs:rewind"]}
{"id": "C45", "title": "Input files are never modified and outputs do not overwrite each other", "statement": "A run leaves every input file's content unchanged, and for each input file there is an output file with that file's records.", "quantifier": "all input file lists and output directories", "why_tests_cant": "Depends on path coincidences.", "anchors": ["src/bin/main.rs:cres_with_search", "src/io.rs:CombinedFileIO::init", "src/hepmc2.rs:FileIO::try_new"]}
{"id": "C46", "title": "Format detection is deterministic and ordered", "statement": "detect_event_file_format classifies by the first bytes: ROOT magic, then optional white space and <?xml, then <LesHouchesEvents, otherwise HepMC2; disabled formats give an error instead of a wrong classification.", "quantifier": "all byte strings, all feature sets", "why_tests_cant": "Universal over file contents.", "anchors": ["src/io.rs:detect_event_file_format", "src/util.rs:trim_ascii_start"]}
{"id": "C47", "title": "ntuple update_all_weights succeeds with one weight entry per record", "statement": "ntuple::FileIO::update_all_weights with as many weight entries as records writes all records and returns their number.", "quantifier": "all numbers of records and weights", "why_tests_cant": "Off-by-one at the end of the weight list.", "anchors": ["src/ntuple.rs:update_all_weights"]}
{"id": "C48", "title": "Malformed records give an error, never a panic", "statement": "Converter::try_convert returns an error for every record it cannot interpret and never panics.", "quantifier": "all byte strings as records", "why_tests_cant": "Universal over inputs.", "anchors": ["src/lhef.rs:parse_lhef", "src/hepmc2.rs:extract_weights"]}
{"id": "C49", "title": "Size hints of STRIPPER XML readers count the remaining records", "statement": "size_hint of a reader for a file that declares the number of its records equals that number minus the records read so far, never underflows, and is correct again after rewind.", "quantifier": "all files and call histories", "why_tests_cant": "Histories with rewind.", "anchors": ["src/stripper_xml.rs:FileReader", "src/io.rs:CombinedFileIO::size_hint"]}
{"id": "C50", "title": "The cell collector keeps the largest cells", "statement": "After any sequence of collect calls the collector holds the min(10,n) largest cells by radius, by number of members and by weight, and the first ten cells; every stored cell number is below the number of cells seen.", "quantifier": "all sequences of cells", "why_tests_cant": "Invariant over histories.", "anchors": ["src/cell_collector.rs:CellCollector::collect"]}
{"id": "C51", "title": "Combining cell collectors keeps the largest cells", "statement": "CellCollector::combine of two collectors holds the ten largest cells of both by radius, members and weight.", "quantifier": "all pairs of collectors", "why_tests_cant": "Needs more than ten cells in several threads.", "anchors": ["src/cell_collector.rs:CellCollector::combine", "src/cell_collector.rs:truncate"]}
{"id": "C52", "title": "Cell statistics do not depend on the distribution of cells over threads", "statement": "The number of cells, the number of negative cells and the median radius reported after resampling are the same for every distribution of the same cells over threads and every order of combining.", "quantifier": "all lists of cells, all distributions over threads", "why_tests_cant": "Universal over schedules.", "anchors": ["src/resampler.rs:Observer", "src/resampler.rs:ObserverData::combine", "src/resampler.rs:median_radius"]}
{"id": "C53", "title": "event_cells maps as documented from cell numbers to event ids", "statement": "The keys of CellCollector::event_cells are the cell numbers and the values the event ids of that cell.", "quantifier": "all collectors", "why_tests_cant": "Universal over collectors.", "anchors": ["src/cell_collector.rs:CellCollector::event_cells"]}
{"id": "C54", "title": "Validated options never lead to a missing-option panic", "statement": "If the cres command line passes validation, building the lepton and photon definitions cannot panic; validation accepts exactly all-or-none of each option group.", "quantifier": "all combinations of options", "why_tests_cant": "All combinations for both tools.", "anchors": ["src/bin/opt_cres_validate.rs:validate", "src/bin/opt_common.rs", "src/bin/partition.rs"]}
{"id": "C55", "title": "Compression option parsing accepts exactly the documented settings", "statement": "parse_compr succeeds exactly on bzip2/bz2, gzip/gz, lz4, zstd/zstandard (case-insensitive), optionally with _level except for bzip2, with level at most 9, 16, 19 respectively, and returns that level or the default.", "quantifier": "all strings", "why_tests_cant": "Universal over strings.", "anchors": ["src/bin/opt_common.rs:parse_compr"]}
{"id": "C56", "title": "Number of regions is a power of two and log2 inverts it", "statement": "parse_nregions accepts exactly the decimal powers of two below 2^32, and log2 returns the exponent; log2(n) is the floor of the binary logarithm for every n >= 1.", "quantifier": "all strings, all 32-bit numbers", "why_tests_cant": "2^32 values.", "anchors": ["src/bin/opt_partition.rs:parse_nregions", "src/bin/partition.rs:log2", "src/resampler.rs:log2"]}
{"id": "C57", "title": "cres_get_last_err never writes beyond the buffer and always terminates the message", "statement": "With a buffer of buflen bytes only the first buflen bytes are written; if a message exists and buflen > 0 the buffer holds a NUL-terminated prefix of it; 0 is returned iff the whole message fitted, otherwise the required size (messages below 2^31-1 bytes).", "quantifier": "all messages and buffer sizes", "why_tests_cant": "Boundary sizes for all lengths.", "anchors": ["src/c_api/error.rs:cres_last_err_internal"]}
{"id": "C58", "title": "The C event view exposes the event's weights", "statement": "In a C distance function, view->weights[i] for i < n_weights is the i-th weight of the event.", "quantifier": "all events", "why_tests_cant": "Needs reasoning about memory layout for all weights.", "anchors": ["src/c_api/distance.rs:DistanceFn::distance", "src/c_api/event.rs:EventView"]}
{"id": "C59", "title": "Clustering keeps weights and id and treats every particle exactly once", "statement": "DefaultClustering::cluster returns an event with the same weights and id; every outgoing particle is used exactly once: as isolated photon, as kept particle, as input to lepton clustering, as input to jet clustering, or dropped because it is a neutrino and neutrinos are excluded.", "quantifier": "all events, all clustering settings, any jet algorithm", "why_tests_cant": "Universal over events.", "anchors": ["src/cluster.rs:DefaultClustering::cluster"]}
{"id": "C60", "title": "cres-classify-events writes every record to exactly one output file", "statement": "The outputs of cres-classify-events together contain every input record exactly once, in input order within each file, in the file of the record's region, each file starting with the input header and ending with the format's footer.", "quantifier": "all input files, all partitions", "why_tests_cant": "Universal over inputs.", "anchors": ["src/bin/classify-events.rs:classify_byte_records", "src/bin/classify-events.rs:trim_footer"]}
{"id": "C61", "title": "Logging is restored after a progress bar", "statement": "Creating and finishing progress bars leaves the log level as it was, for every sequence of bars, also when an operation ends with an error.", "quantifier": "all sequences of progress-bar operations", "why_tests_cant": "Histories including error paths.", "anchors": ["src/progress_bar.rs:ProgressBar", "src/cres.rs:read_events"]}
{"id": "C62", "title": "Four-vectors keep their transverse momentum up to date", "statement": "After construction and any sequence of additions and subtractions, pt() is sqrt(px^2+py^2) of the current components.", "quantifier": "all sequences of operations", "why_tests_cant": "Cached field invariant over histories.", "anchors": ["src/four_vector.rs:FourVector"]}
{"id": "C63", "title": "The randomly selected cells are a uniform sample", "statement": "After resampling, each cell has the same probability of being among the (at most ten) randomly selected cells, for every number of cells and also after combining the collectors of several threads.", "quantifier": "all numbers of cells and distributions over threads", "why_tests_cant": "A statement about all random choices; tests see only a few.", "anchors": ["src/cell_collector.rs:CellCollector::collect", "src/cell_collector.rs:CellCollector::combine"]}
{"id": "C64", "title": "A HepMC2 record is read as the event it describes", "statement": "Reading an event from a HepMC2 record with any number of weights, lines and particles, entries separated by any blanks, returns the first weight (with multiweight also the weights whose names are selected, in the order of the record) and exactly the particles with status 1, grouped by type, with their energy and momentum, divided by 1000 if the record is in MeV. The names are assumed to be found.", "quantifier": "all HepMC2 records, all layouts, all selections of weight names", "why_tests_cant": "Unbounded text; a test covers one layout.", "anchors": ["src/hepmc2.rs:HepMCParser::parse_hepmc", "src/parsing.rs", "src/event.rs:EventBuilder"]}
{"id": "C65", "title": "An LHEF record is read as the event it describes", "statement": "Reading an event from an LHEF record with at least two particles returns its weight and exactly the particles with status 1, grouped by type, with their energy and momentum, whatever else is on the lines.", "quantifier": "all LHEF records with two or more particles, all layouts", "why_tests_cant": "Unbounded text; a test covers one layout.", "anchors": ["src/lhef.rs:LHEFParser::parse_lhef", "src/parsing.rs"]}
{"id": "C66", "title": "A STRIPPER XML record is read as the event it describes", "statement": "Reading an event from a STRIPPER XML record returns its weight and exactly the particles with status 0, grouped by type, with their energy and momentum, whether or not there are blanks around the numbers.", "quantifier": "all STRIPPER XML records, all layouts", "why_tests_cant": "Unbounded text; a test covers one layout.", "anchors": ["src/stripper_xml.rs:parse_stripper_xml"]}
{"id": "C67", "title": "An ntuple record is read as the event it describes", "statement": "Reading an event from an ntuple record returns the central weight, with multiweight also the selected ones in the order 2, ME, ME2, and all particles, grouped by type, with their energy and momentum.", "quantifier": "all records, all numbers of particles, all selections of weights", "why_tests_cant": "Unbounded number of particles and all combinations of weights.", "anchors": ["src/ntuple.rs:convert_ntuple"]}
{"id": "C68", "title": "Output files can be read again", "statement": "If all events in the input files can be read, then after updating all weights with weights that can be written each output file is again a readable file of the same format with the same header and as many records in the same order, and reading the events from it gives the events of the input file with the new weights and the same particles.", "quantifier": "all input files in the three text formats, all numbers of files and events, all weights, all sequences of previous calls", "why_tests_cant": "Quantifies over all file contents; a round trip in a test covers one file.", "anchors": ["src/io.rs:CombinedFileIO::update_all_weights", "src/hepmc2.rs:FileIO", "src/lhef.rs:FileIO", "src/stripper_xml.rs:FileIO"]}
{"id": "C69", "title": "A complete run conserves the sum of weights in the files", "statement": "Running the program on input files that can be read, with distinct output files that are not input files, changes no file except the output files, succeeds if the new weights can be written, and leaves output files of the same formats with the same headers and the same events in the same order up to weights. The sum of weights over all output files is the sum of weights over all input files.", "quantifier": "all contents of input files, all settings of clustering, distance, neighbour search, seed selection and unweighting, all orders of execution of the parallel tasks for reading and resampling", "why_tests_cant": "Needs all file contents and all schedules of two parallel phases at once.", "anchors": ["src/bin/main.rs:cres_with_search", "src/cres.rs:Cres::run", "src/resampler.rs:Resampler::resample", "src/io.rs:CombinedFileIO", "src/unweight.rs:Unweighter::unweight"]}
{"id": "C70", "title": "Weight sums are conserved up to rounding", "statement": "With f64 weights, resampling changes the sum of each kind of weight by no more than the rounding errors of the operations carried out: relative to the sum of absolute weights at most 2^-52 for each event in each cell and one more per cell, for every order of execution of the parallel tasks, as long as sums of weights do not overflow.", "quantifier": "all f64 weights, all samples, neighbour searches, seeds and interleavings, with or without multiweight", "why_tests_cant": "Rounding errors accumulate over unboundedly many cells in an order that depends on the schedule; a test sees one sum.", "anchors": ["src/cell.rs:Cell::resample", "src/resampler.rs:Resampler::resample", "src/event.rs:Weights"]}
{"id": "C71", "title": "No negative weights are left, in spite of rounding", "statement": "With f64 weights, if the total weight of the sample is non-negative, no maximum cell size is set and cells are processed one after the other, then no event has a negative central weight afterwards.", "quantifier": "all f64 weights with non-negative sum, all samples, metrics and seed orders", "why_tests_cant": "Depends on the rounding of sums formed in two different orders; needs all orders of neighbours.", "anchors": ["src/cell.rs:Cell::new", "src/cell.rs:Cell::resample", "src/resampler.rs:Resampler::resample"]}
{"id": "C72", "title": "Output files are in the output directory and have the names of the input files; nothing else is written", "statement": "For every input path d/n given to cres or cres_run the output is the file n directly in the output directory, wherever d is and whatever . and .. it contains. Two inputs share an output exactly if they have the same name, and an input is its own output exactly if its directory is the output directory. Whatever happens in the run, no other file changes; if some path has no file name no file changes at all.", "quantifier": "all input paths, output directories, current directories, settings, file contents, outcomes of the run", "why_tests_cant": "Paths are arbitrary byte strings and the run can end in many ways.", "anchors": ["src/bin/main.rs:main", "src/c_api/cres.rs:cres_run", "src/io.rs:build_from_files_iter", "src/io.rs:CombinedFileIO"]}
{"id": "C73", "title": "classify-events writes into the output directory, with the number of the region in the file name", "statement": "For an input file with name n in any directory the output of classify-events for region i is directly in the output directory; its name is n with i inserted before the first dot (or appended). Different regions have different names, and so do different input names with a dot.", "quantifier": "all input paths in UTF-8, output directories, region numbers, formats", "why_tests_cant": "Paths are arbitrary byte strings.", "anchors": ["src/bin/classify-events.rs:make_byte_writers", "src/bin/classify-events.rs:classify_ntuple_records"]}
{"id": "C74", "title": "A run of the command line program conserves the sum of weights in files and touches only its outputs", "statement": "Given paths of event files in the text formats and, for STRIPPER XML, of files with cross sections, in any order, a run of cres without unweighting (scan for cross sections, creation of output paths, reading, clustering, resampling, writing) of a release build gets as far as writing the weights and, with exact arithmetic, succeeds if the new weights can be written. Then each output file has the records of its input with other weights, the sum of weights over all files is conserved, and no other file changed. Without multiweight, events that have no particles after clustering are written with weight 0 and do not count for the sum. This holds for the central weights and for weights of HepMC2 files with selected names that occur in the same order in all records.", "quantifier": "all input paths, file contents in the supported text formats, settings, distances, cell size limits, interleavings", "why_tests_cant": "Combines all components for all files and schedules.", "anchors": ["src/bin/main.rs:main", "src/io.rs:build_from_files_iter", "src/cres.rs:Cres::run"]}
{"id": "C75", "title": "A run with the C API conserves the sum of weights, and its return value tells whether it succeeded", "statement": "cres_run with valid options behaves as C74 says (for the central weights, as there are no names in the C API), returns 0 and leaves the last error unchanged. In every case it returns 0 with the last error unchanged, 1 with the message of the error as last error, or -1 with the message for a panic, and changes no file except those in the output directory with the name of an input file.", "quantifier": "all options, distances (built in or custom), file contents, interleavings", "why_tests_cant": "Covers all options and all outcomes of a run.", "anchors": ["src/c_api/cres.rs:cres_run", "src/io.rs:build_from_files_iter", "src/cres.rs:Cres::run"]}
{"id": "C76", "title": "The output files do not contain more negative weight than the input files", "statement": "With exact arithmetic, in every run of cres without unweighting that writes its output, the contribution of negative weights, the sum of the absolute values and the sum of the squares of the weights in all output files are at most those in all input files, whatever the cell size limit, the distance, the neighbour search, the clustering and the interleaving of threads are. This holds for the central weights and for weights of HepMC2 files with selected names that occur in the same order in all records.", "quantifier": "all input files in the supported text formats, settings, distances, interleavings", "why_tests_cant": "Must hold for all files, settings and schedules.", "anchors": ["src/bin/main.rs:main", "src/cres.rs:Cres::run", "src/resampler.rs:ParallelResampler", "src/cell.rs:Cell::resample"]}
{"id": "C77", "title": "With one thread and without cell size limit no negative weights are left in the output files", "statement": "With exact arithmetic and one thread, if cells may be as large as needed, nothing is unweighted and the sum of the weights of events with particles in the input files is not negative, the output files of cres contain no negative central weights except those of events without particles after clustering, which are unchanged with multiweight and 0 without. (With several threads this is false, see C05.)", "quantifier": "all input files in the supported text formats, settings, distances", "why_tests_cant": "Must hold for all files and settings, and the run combines reading, clustering, search, resampling and writing.", "anchors": ["src/bin/main.rs:main", "src/cres.rs:Cres::run", "src/resampler.rs:ParallelResampler", "src/vptree.rs:VPTree"]}
{"id": "C78", "title": "Named weights are conserved from input files to output files", "statement": "If names of weights are selected and all HepMC2 records have them, the sum over all output files of the weights with each selected name is the sum over all input files, the sum of the central weights is conserved, and all weights with other names are the same in input and output.", "quantifier": "all HepMC2 input files with named weights, selections of names, settings, interleavings", "why_tests_cant": "Must hold for all files, selections and schedules; names are matched separately when reading and when writing.", "anchors": ["src/bin/main.rs:main", "src/hepmc2.rs:parse_weight_names_line", "src/hepmc2.rs:update_named_weights", "src/cell.rs:Cell::resample"]}
{"id": "C79", "title": "With double-precision weights, sums of weights are conserved from input files to output files up to rounding", "statement": "With f64 arithmetic, sums of absolute weights up to 2^1021 and at most 2^53 operations, every run of a release build without unweighting can write the new weights and succeeds. Adding up the weights in the output files exactly, the result differs from that for the input files (for runs without multiweight: for the events with particles after clustering) by at most N * (2^-52 * T + 6 * 2^-1075), where T is the exact sum of absolute weights and N is the number of events with negative weight times the number of events plus one. If there are STRIPPER XML files, whose weights are divided by a scale when they are written and multiplied by it when they are read, with absolute values of scales between 2^-500 and 2^500 and sums of absolute weights up to 2^500, there is an additional error of at most 2^-49 * T + (n + 1) * 2^-573 for n events. This holds for the central weights and for selected names as in C74.", "quantifier": "all input files with finite weights, settings, interleavings of threads", "why_tests_cant": "Rounding depends on the weights and on the order in which threads process cells; a test covers only a few inputs and schedules.", "anchors": ["src/bin/main.rs:main", "src/cell.rs:Cell::resample", "src/resampler.rs:Resampler::resample", "src/hepmc2.rs:update_weights", "src/lhef.rs:update_weights"]}
{"id": "C80", "title": "With double-precision weights and one thread, negative weights left in the output files are rounding errors", "statement": "With f64 arithmetic, one thread, without unweighting, with a maximal cell size that is not smaller than the distances between events and a non-negative exact sum of weights of events with particles, no central weight of such an event in the output files is less than -(2 * E + X), where E is the bound of C79 and X is the additional bound for STRIPPER XML files.", "quantifier": "all input files with finite weights and settings", "why_tests_cant": "Rounding depends on the weights; a test covers only a few inputs.", "anchors": ["src/bin/main.rs:main", "src/cell.rs:Cell::new", "src/cell.rs:Cell::resample", "src/resampler.rs:Resampler::resample"]}
{"id": "C81", "title": "The neighbour searches find the right events although distances are rounded", "statement": "With distances and differences of distances rounded to f64, the tree search returns exactly the points whose computed distance from the query is at most the maximum distance, nearest first, like the naive search.", "quantifier": "all points, computed distances, tree shapes, maximum distances, queries", "why_tests_cant": "Whether a subtree is skipped depends on rounding of differences between distances; a test covers only a few inputs.", "anchors": ["src/vptree.rs:VPTree::nearest_in_subtree", "src/vptree.rs:VPTree::nearest_in", "src/neighbour_search.rs:TreeSearch", "src/neighbour_search.rs:NaiveNeighbourSearch"]}
{"id": "C82", "title": "Only events near events with negative weight change in the output files", "statement": "In a run without unweighting, an event with outgoing particles and non-negative weight that is further than the maximum cell size from all events with negative weight is the same in the output files as in the input files. If there are no negative weights, nothing changes; so running cres again on output files without negative weights has no effect.", "quantifier": "all input files in the supported text formats, settings, distances, schedules, arithmetics of weights (also rounded)", "why_tests_cant": "Must hold for all files, settings and schedules, and the run combines reading, clustering, search, resampling and writing.", "anchors": ["src/bin/main.rs:main", "src/cres.rs:Cres::run", "src/resampler.rs:ParallelResampler", "src/cell.rs:Cell::resample", "src/seeds.rs:StrategicSelector"]}
{"id": "C83", "title": "Linear relations between weights are kept in the output files", "statement": "With exact arithmetic and without unweighting, if a linear combination of the weights of an event is at most b for all events with particles (after clustering) in the input files, it is at most b for all these events in the output files. So equations such as w2 = 2 w1, and bounds on weights, hold in the output if they hold in the input.", "quantifier": "all input files in the supported text formats, settings, distances, schedules, coefficients and bounds", "why_tests_cant": "Must hold for all files, settings, schedules and coefficients.", "anchors": ["src/bin/main.rs:main", "src/cres.rs:Cres::run", "src/resampler.rs:ParallelResampler", "src/cell.rs:Cell::resample"]}
{"id": "C84", "title": "Interrupted runs change only output files, which then contain a first part of the complete output", "statement": "If a run is interrupted at any time, or if creating or writing a file fails at any time, then input files and all other files that are not output files are unchanged, and each output file is as before the run or contains a first part of what the complete run writes to it.", "quantifier": "all crash points (also within a write), write errors, sizes of the write buffer, files, settings and schedules", "why_tests_cant": "Must hold for every crash point and every pattern of write errors; tests cannot enumerate them.", "anchors": ["src/io.rs:CombinedFileIO", "src/hepmc2.rs:FileIO", "src/lhef.rs:FileIO", "src/stripper_xml.rs:FileIO", "src/cres.rs:Cres::run"]}
{"id": "C85", "title": "If a run succeeds then the output is complete", "statement": "If a run reports success then each output file contains everything that was written to it.", "quantifier": "all write errors, sizes of the write buffer, files, settings and schedules", "why_tests_cant": "Must hold for all patterns of write errors, which are hard to produce in tests.", "anchors": ["src/io.rs:CombinedFileIO", "src/hepmc2.rs:FileIO", "src/lhef.rs:FileIO", "src/stripper_xml.rs:FileIO", "src/cres.rs:Cres::run"]}
{"id": "C86", "title": "An interrupted or failed run can be repeated", "statement": "After a run was interrupted or failed at any time, repeating it (also with other settings) is possible and gives what it would give if the first run had not taken place.", "quantifier": "all crash points, write errors, files, settings and schedules of both runs", "why_tests_cant": "Must hold for every crash point and every state of partially written files.", "anchors": ["src/io.rs:CombinedFileIO", "src/hepmc2.rs:FileIO", "src/lhef.rs:FileIO", "src/stripper_xml.rs:FileIO", "src/cres.rs:Cres::run"]}
{"id": "C87", "title": "Truncated input files are recognised", "statement": "If an event file is a first part of a complete event file, for example because an earlier run was interrupted, then reading it reports an error, or the events are those of the complete file.", "quantifier": "all event files in the supported text formats and all positions at which they can end", "why_tests_cant": "Must hold for all files and every position at which a file can be cut off.", "anchors": ["src/hepmc2.rs:FileReader", "src/lhef.rs:FileReader", "src/stripper_xml.rs:FileReader", "src/hepmc2.rs:HepMCParser", "src/lhef.rs:LHEFParser"]}
{"id": "C88", "title": "Results do not depend on how events are distributed over files", "statement": "If two collections of input files contain the same events in the same order, split into files in different ways, under different names or in different text formats, then each result the program can produce for one collection it can also produce for the other: the new weights are the same, and the events in the output files are the same and in the same order.", "quantifier": "all pairs of collections of event files with the same events, all settings, all schedules", "why_tests_cant": "Must hold for all ways of distributing events over files and formats and for all schedules.", "anchors": ["src/io.rs:CombinedFileIO", "src/cres.rs:Cres::run", "src/main.rs:main"]}
{"id": "C89", "title": "Results do not depend on the order of events in the input", "statement": "If two collections of input files contain the same events in a different order, then each result the program can produce for one collection it can also produce for the other: the events with their new weights are the same up to their order.", "quantifier": "all pairs of collections of event files whose events differ only in their order, all schedules, all distances that do not use positions of events in files", "why_tests_cant": "Must hold for all permutations of events and for all schedules.", "anchors": ["src/cres.rs:Cres::read_events", "src/cres.rs:Cres::run", "src/resampler.rs:DefaultResampler", "src/unweight.rs:Unweighter", "src/main.rs:main"]}
{"id": "C90", "title": "Results do not depend on the unit of weights", "statement": "If all weights in the input files and the minimum weight for unweighting are multiplied by the same positive number, for example to convert picobarn to femtobarn, then each result the program can produce for the original input it can also produce for the converted one, with all weights in the output multiplied by that number; the same events survive unweighting.", "quantifier": "all collections of event files, all positive factors, all settings, all schedules, exact arithmetic or rounding that commutes with the factor (such as powers of two)", "why_tests_cant": "Must hold for all factors, inputs and schedules. An absolute threshold anywhere in the program would break it.", "anchors": ["src/cres.rs:Cres::run", "src/resampler.rs:DefaultResampler", "src/unweight.rs:Unweighter", "src/seeds.rs:StrategicSelector", "src/main.rs:main"]}
{"id": "C91", "title": "Unweighting preserves the sum of weights up to rounding errors", "statement": "With double-precision weights, all of them positive or zero, unweighting changes the sum of weights by at most 2^-49 of its value per event, if at least one event survives and no number is close to overflow or underflow.", "quantifier": "all lists of up to 2^40 events with non-negative weights, all minimum weights, all random numbers, all ways in which parallel sums are split", "why_tests_cant": "Rounding errors depend on all weights, on random numbers and on how threads split the sums.", "anchors": ["src/unweight.rs:Unweighter::unweight"]}
{"id": "C92", "title": "Results do not depend on the orientation of events or the unit of momenta", "statement": "If all events are rotated around the beam axis, if the beams are exchanged, or if all momenta (and the cell size limit and thresholds) are converted to another unit, then for each run there is a run with exactly the same weights in the output.", "quantifier": "all input files, all rotations around the beam axis, all units, all distance settings, both search algorithms, all outcomes of choices between events with equal distance", "why_tests_cant": "There are infinitely many angles and units, and cells are built from all pairwise distances.", "anchors": ["src/distance.rs:EuclWithScaledPt", "src/resampler.rs:Resampler::resample", "src/cluster.rs", "src/main.rs:main"]}
{"id": "C93", "title": "Unweighting only acts on top of resampling in complete runs", "statement": "For each complete run with a minimum weight there is a run with the same files and settings but without minimum weight such that the weights written by the first are those of the second after unweighting: only weights below the minimum are discarded, the weights of all other events are multiplied by one common factor, smaller ones being raised to the minimum first, with one factor for all weights of an event. The sum of central weights is the same unless all events are discarded; non-zero weights in the output are at least the minimum times the common factor; if the run without minimum weight has no negative weights there are none in the output.", "quantifier": "all input files, settings, minimum weights, random numbers, schedules of reading and resampling, both values of the multiweight feature (output files: without it)", "why_tests_cant": "The weights reach the unweighter through reading, clustering and parallel resampling and return to the files by event ids; a mistake anywhere would assign weights to the wrong events for some input, schedule or sequence of random numbers.", "anchors": ["src/cres.rs:Cres::run", "src/unweight.rs:Unweighter::unweight", "src/resampler.rs:Resampler::resample", "src/bin/main.rs:main"]}
{"id": "C94", "title": "Files of cres-classify-events are input files for cres", "statement": "If a file is a valid input file for cres, then for each region that contains at least one of its events cres-classify-events writes a valid input file for cres with the same header and exactly the events in this region, with their weights and momenta, in the original order. Running cres separately for each region therefore preserves the sum of each weight over all events.", "quantifier": "all HepMC2, LHEF and STRIPPER XML files and lists of files that cres can read, all partitions into regions, all settings, random numbers and schedules of the cres runs", "why_tests_cant": "The tool copies records without parsing them and moves the footer of the file to the end of the last record of each region; whether the results can be read depends on white space, comments and the position of the footer in the input.", "anchors": ["src/bin/classify-events.rs:classify_records", "src/bin/classify-events.rs:trim_footer", "src/hepmc2.rs:HepMCParser::parse", "src/stripper_xml.rs:Reader::try_next_record"]}
{"id": "C95", "title": "Compression of input and output files does not change results", "statement": "Whether input files are compressed and with which compression output files are written makes no difference: after decompression all output files contain exactly what they would contain without compression, and no other files are changed. This includes that the first output file is opened a second time while it is still open. If a run is interrupted or writing fails, only output files are affected, and later runs give the same results as if it had not taken place.", "quantifier": "all programs, input files, compression formats and levels, all times at which encoders and buffers pass on data to the files, all results of the run including errors, all interruptions and write failures", "why_tests_cant": "Encoders hold back data for an unspecified time and write the rest when they are dropped, and two encoders write to the same file for a moment; tests see one of the many possible orders.", "anchors": ["src/compression.rs:compress_writer", "src/hepmc2.rs:FileIO::try_new", "src/lhef.rs:FileIO::try_new", "src/stripper_xml.rs:FileIO::try_new", "src/io.rs:detect_event_file_format"]}
{"id": "C96", "title": "Every run ends, whatever the input files contain", "statement": "No input makes cres run or wait forever. For any content of the input files, valid or not, and even if output files overwrite input files: reading comes to an end after at most as many records as there are bytes, all loops in readers, parsers and searches end, the tasks for reading and for resampling take a bounded number of steps, and when no task can go on they have all finished or one of them has panicked. So each run has an outcome: success, an error or a panic. In particular events with missing weights or different numbers of weights do not lead to a deadlock.", "quantifier": "all contents of files, all file names, settings and builds, all schedules of tasks", "why_tests_cant": "Endless loops and deadlocks show up only for particular malformed inputs or schedules, and a test that does not end does not tell whether it would end later.", "anchors": ["src/cres.rs:Cres::run", "src/cres.rs:Cres::read_events", "src/io.rs:CombinedFileIO", "src/hepmc2.rs:FileReader::read_raw", "src/lhef.rs:FileReader::read_raw", "src/stripper_xml.rs:FileReader::read_raw", "src/resampler.rs:Resampler::resample", "src/vptree.rs:VPTree::nearest_in_subtree"]}
{"id": "C97", "title": "The choice of the neighbour search does not change results", "statement": "The tree search and the naive search are interchangeable: if no two events have the same distance from an event with negative weight and no two events have the same negative weight, then exactly the same runs are possible with both, with the same weights, results and output files. The same holds for different ways to treat elements that compare equal in sorting.", "quantifier": "all input files, all metric distances (in particular the default distance), all cell size limits and strategies, all schedules and numbers of threads, all arithmetic of weights", "why_tests_cant": "The two searches visit events in a different order and depend on all distances; equality must hold for every input and schedule.", "anchors": ["src/resampler.rs:DefaultResampler", "src/neighbour_search.rs", "src/vptree.rs:VPTree", "src/seeds.rs:StrategicSelector", "src/bin/main.rs:main"]}
{"id": "C98", "title": "On one thread the output is determined by the input", "statement": "With one thread, without unweighting and without ties (events at the same distance from an event with negative weight or with the same negative weight), two runs with the same input files have the same weights, the same result and the same output files, in whatever order events arrive in memory and whichever search is used. If the same events are in another order in other input files, each event gets the same weight.", "quantifier": "all input files, all orders in which tasks for reading finish, all metric distances (in particular the default distance), both searches, both orders of seeds by weight", "why_tests_cant": "The order in which parallel tasks deliver events changes from run to run and there are too many orders to try.", "anchors": ["src/cres.rs:Cres::read_events", "src/cres.rs:Cres::run", "src/resampler.rs:DefaultResampler", "src/seeds.rs:StrategicSelector", "src/bin/main.rs:main"]}
{"id": "C99", "title": "Several runs at the same time do not interfere", "statement": "Any number of runs of the program can take place at the same time on the same file system, for example one for each part of a partition. If no output file of a run is an input or output file of another run, then whatever the interleaving each run has a result, weights and output files that it can also have alone, files that are not output files do not change, and in the end everything is as if the runs had been made one after the other in any order.", "quantifier": "all numbers of runs with any settings and input files, all interleavings of their accesses to files, all outcomes of the parallel computations inside each run, all points of time at which one of the runs ends", "why_tests_cant": "There are far too many interleavings of the accesses to files, and a test cannot control them.", "anchors": ["src/bin/main.rs:main", "src/io.rs:CombinedFileIO", "src/hepmc2.rs:FileIO", "src/lhef.rs:FileIO", "src/stripper_xml.rs:FileIO", "Readme.md"]}
{"id": "C100", "title": "Resampling is local", "statement": "With a maximum cell size, events only influence each other if they are close. If the events consist of two groups, and each distance between events of different groups is greater than the maximum cell size, then a run for all events can give exactly those results that runs for the two groups alone can give together. So neither the weights nor the order of resampling nor the scheduling in one group has an effect on the other group.", "quantifier": "all event samples in any files, all ways to split them into groups that are farther from each other than the maximum cell size, all strategies and searches, all arithmetic for weights, all schedules of the parallel tasks", "why_tests_cant": "A test compares particular runs for particular samples, but the set of possible results for all schedules has to be the same.", "anchors": ["src/cres.rs:run", "src/resampler.rs:resample", "src/cell.rs:Cell", "src/neighbour_search.rs:NeighbourSearch", "Readme.md"]}
{"id": "C101", "title": "The selection of named weights does not influence other weights", "statement": "Selecting additional names of weights changes neither the central weights in the output nor the weights with other names. Runs with all selected names and runs with only some of them can give exactly the same central weights and weights with these names. Runs without any names can give exactly the same central weights, provided that reading without names gives the same central weights.", "quantifier": "all HepMC2 files with named weights, all selections of names, all strategies, searches and unweighting thresholds, all arithmetic for weights, all schedules of the parallel tasks", "why_tests_cant": "A test compares particular selections for particular files, and runs with several threads are not reproducible, so that the sets of possible results have to be compared.", "anchors": ["src/hepmc2.rs:parse_weight_names_line", "src/hepmc2.rs:update_named_weights", "src/cell.rs:resample", "src/event.rs:Weights", "src/unweight.rs:unweight", "src/cres.rs:run"]}
{"id": "C102", "title": "Options mean what is documented, in the program and in the C interface", "statement": "The program rejects incomplete options for leptons or photons without touching any file, and otherwise runs with exactly the settings given by the options. A call of the C interface without a user-defined distance can have exactly the same effects on files as the program with the same options and default values for everything that cannot be set. Without a maximum cell size, and with infinity in the C interface, cells are unlimited: the possible results are the same as for any maximum size that is not less than all distances. Only the documented names of strategies and jet algorithms are accepted, up to their style of writing.", "quantifier": "all options, all input files, all libraries for jets, all arithmetic for weights, all schedules of the parallel tasks", "why_tests_cant": "There are infinitely many combinations of options and inputs, and runs are not reproducible, so that sets of possible results have to be compared.", "anchors": ["src/bin/main.rs:cres_with_search", "src/bin/opt_cres.rs:Opt", "src/bin/opt_cres.rs:parse_strategy", "src/bin/opt_cres_validate.rs:validate", "src/cluster.rs:JetAlgorithm", "src/c_api/cres.rs:cres_run", "src/resampler.rs:DefaultResampler"]}
{"id": "C103", "title": "Running again changes nothing", "statement": "A run on the output files of another run leaves no trace of that run except for the weights it ends with: a run on the original files that ends with the same weights writes the same bytes. If a run ends without negative weights, a further run on its output files writes exactly the same bytes again.", "quantifier": "all input files, all formats, central weights or selected names, all schedules of the parallel tasks, all settings of the further run except those for reading and clustering", "why_tests_cant": "Byte-for-byte equality after two runs has to hold for every input file, including unusual white space and formats of numbers, and every schedule.", "anchors": ["src/bin/main.rs:cres_with_search", "src/hepmc2.rs:update_central_weight", "src/hepmc2.rs:update_named_weights", "src/lhef.rs:FileIO", "src/stripper_xml.rs:FileIO", "src/cres.rs:Cres::run"]}
{"id": "C104", "title": "Complete runs on ROOT ntuples", "statement": "A run on ROOT ntuple files without unweighting whose events can be read succeeds. It writes one output file for each input file, with the same records in the same order, and changes no other file. In a record only the central weight and, with multiweight support, the weights with selected names (2, ME, ME2) may change. For each of the four weights the sum over all records in the output is the sum over all records in the input, if multiweight support is enabled or all events have particles that are recognised, and the contribution of negative weights, the sum of absolute values and the sum of squares do not increase. With one thread and no limit on the cell size there are no negative central weights for events with particles in the output, if their sum is not negative. Records of events with non-negative weight that are further than the maximal cell size from all events with negative weight do not change at all.", "quantifier": "all ntuple files and records, all selections of weight names, all clusterings and distances, all schedules of the parallel tasks", "why_tests_cant": "Weights pass through reading, resampling and updating in different orders; a mismatch in the order of weights or records shows up only for some selections of names or schedules.", "anchors": ["src/ntuple.rs:FileIO", "src/ntuple.rs:convert_ntuple", "src/io.rs:CombinedFileIO", "src/cres.rs:Cres::run", "src/cres.rs:read_events"]}
{"id": "C105", "title": "A cell collector records the cells of all resamplings", "statement": "A cell collector that is handed to the default resampler knows, after any number of resamplings on any number of threads, the number of cells that were created, and contains for each criterion ten different cells of them, or all cells if there are fewer, with their numbers, sizes and events. It never makes a resampling fail, and a resampling without cells leaves it as it is.", "quantifier": "all numbers of resamplings, all sequences of cells, all distributions of cells over threads, all random numbers", "why_tests_cant": "Each thread works on its own copy of the collector, and copies are combined in the order in which thread-local data are visited; the number of threads that take part and their share of the cells depend on the schedule.", "anchors": ["src/resampler.rs:DefaultResampler::resample", "src/resampler.rs:Observer", "src/resampler.rs:ObserverData::combine", "src/cell_collector.rs:CellCollector"]}
{"id": "C106", "title": "Reported weights describe the files and do not get worse", "statement": "A run reports the sum of weights, its uncertainty and the fraction of negative weights before and after resampling. Without unweighting, these are the numbers for the events with particles in the input files and for the same events in the output files. The sum is the same, and neither the uncertainty nor the fraction of negative weights increases.", "quantifier": "all runs without unweighting on all input files, all distances, cell sizes and strategies, all interleavings of threads", "why_tests_cant": "The reported numbers are computed from events in memory, the weights in the output are written later from a different list. The effect of resampling on them depends on all cells and on the order in which threads resample them.", "anchors": ["src/resampler.rs:log_weight_sums", "src/resampler.rs:DefaultResampler::resample", "src/cres.rs:Cres::run"]}
{"id": "C107", "title": "Reported event categories describe the input files", "statement": "A run reports the number of events in the input files, the number of events that are ignored because they have no particles, and the number of events for each combination of particle types and multiplicities, most frequent ones first. All combinations are shown if there are at most 1000; otherwise the 1000 most frequent ones are shown and their total number is given. Each event is counted exactly once, and all runs on the same files report the same in the same order.", "quantifier": "all runs in which events are read, all input files, all clustering settings, all interleavings of threads, all orders of traversal of hash maps", "why_tests_cant": "Events are read in an order that depends on the threads and are counted in a hash map with random order.", "anchors": ["src/cres.rs:log_multiplicities", "src/cres.rs:Cres::run"]}
{"id": "C108", "title": "Files of different formats can be combined in one run", "statement": "A run without unweighting accepts any mixture of HepMC, Les Houches, STRIPPER XML and ROOT ntuple files. If the new weights can be written, it succeeds and changes only the output files. Each output file has the format of its input file, can be read again and differs only in the weights; the weights at each position belong to the event at that position in all input files taken together. The sum of weights over all files is conserved, with `multiweight` or if all events have particles, even if weight moves between files of different formats, and the contribution of negative weights does not increase. With one thread and without a limit on the size of cells no negative weights remain if the total weight is not negative. Events with non-negative weight that are far from all events with negative weight, in any file, keep their weights, and no weight exceeds the largest or falls below the smallest one in the input.", "quantifier": "all settings without unweighting and without selected weights, all numbers and mixtures of input files, all contents of files, all interleavings of threads", "why_tests_cant": "Ntuple records are handled differently from text records when events are read, so that order and numbering of events depend on the mixture of files and on the threads.", "anchors": ["src/io.rs:build_from_files", "src/io.rs:CombinedFileIO", "src/cres.rs:read_events", "src/ntuple.rs:FileIO"]}
{"id": "C109", "title": "Isolated negative weights make the result independent of threads and strategy", "statement": "If no event is within the maximum cell size of two events with negative weight, and no two events have the same distance from an event with negative weight, the new weights and the output files do not depend on the number of threads, the strategy, the neighbour search or the order in which events arrive in memory. With the same events in a different order, or in different files, each event gets the same weight.", "quantifier": "all settings without unweighting whose distance is a metric, all input files that meet the condition, all interleavings of threads, all pairs of strategies and neighbour searches", "why_tests_cant": "Which cell is resampled first depends on the threads. A test sees few of the possible interleavings and cannot show that none of them makes a difference.", "anchors": ["src/resampler.rs:DefaultResampler::resample", "src/seeds.rs:Strategy", "src/cell.rs:Cell::resample", "src/bin/opt_cres.rs:Opt::threads"]}
{"id": "C110", "title": "A larger cell size does not leave more negative weight", "statement": "The command line help says that the downside of a maximum cell size is that not all negative weights may be cancelled. So if the maximum cell size is increased and everything else stays the same, the contribution of negative weights in the output files does not increase.", "quantifier": "all settings without unweighting, all pairs of maximum cell sizes, all input files", "why_tests_cant": "A larger cell changes which weights are left for all later cells, so the effect depends on all events.", "anchors": ["src/bin/opt_cres.rs:Opt::max_cell_size", "src/resampler.rs:DefaultResampler::resample", "src/cell.rs:Cell::new"]}
{"id": "C111", "title": "Predictions for observables that do not resolve cells are preserved", "statement": "If an observable that does not depend on weights has the same value for all events within the maximum cell size of an event with negative weight, then the sum of its values times the weights is the same in the output files as in the input files, for each weight. So the content of a bin in a histogram does not change if no edge of the bin is near an event with negative weight. If the observable changes by at most a small number between such events, the change of the prediction is at most proportional to this number. In builds without support for several weights, events without recognised particles do not contribute to the prediction.", "quantifier": "all observables, all settings without unweighting, all input files, all weights, all interleavings of threads, all strategies and neighbour searches", "why_tests_cant": "Which events share a cell depends on all events and on the threads. A test can compare histograms only for the observables, events and interleavings it tries.", "anchors": ["src/cell.rs:Cell::resample", "src/resampler.rs:DefaultResampler::resample", "src/bin/opt_cres.rs:Opt::max_cell_size"]}
{"id": "C112", "title": "Guarantees do not depend on distances being fixed", "statement": "A distance function provided by the user, in Rust or through the C interface, can look at weights or at its own data, so that the distance between two events changes while other threads resample. Whatever distances it returns whenever it is called, in release builds resampling does not panic or deadlock, and without unweighting a run succeeds if the new weights can be written, the output files contain the same events up to their weights, the sum of weights is conserved (in builds without support for several weights: of events with recognised particles), and the contribution of negative weights, the sum of absolute values and the sum of squares of weights do not increase, for each weight. This includes distances that are not symmetric and do not fulfil the triangle inequality.", "quantifier": "all values of the distance at each evaluation, all settings without unweighting, all input files, all weights, all interleavings of threads, all strategies and both neighbour searches", "why_tests_cant": "The result of an evaluation depends on which weights other threads have already changed, so that it differs between runs. A test sees only some interleavings and some distance functions.", "anchors": ["src/distance.rs:Distance", "src/c_api/distance.rs:DistanceFn", "src/neighbour_search.rs:NaiveNeighbourSearch", "src/vptree.rs:VPTree::nearest_in", "src/cell.rs:Cell::new"]}
{"id": "C113", "title": "Support for ROOT ntuples changes nothing for other files", "statement": "Whether cres is built with support for ROOT ntuples makes no difference for a run in which no input file begins like a ROOT file and no input file is also an output file: exactly the same events, weights, results, error messages, panics and contents of files are possible. So what is known about runs on text files also holds for builds with support for ntuples.", "quantifier": "all contents of input files including malformed ones, all numbers of files, all settings, all interleavings of threads, with and without unweighting and multiweight, debug and release builds", "why_tests_cant": "The feature changes the type of records and the loop that reads them. Tests of one build say nothing about the other, and the set of possible outcomes cannot be observed by running the program.", "anchors": ["src/io.rs:detect_event_file_format", "src/io.rs:EventRecord", "src/io.rs:CombinedFileIO", "src/cres.rs:Cres::read_events"]}
{"id": "C114", "title": "An input file that cannot be used is noticed before events are read", "statement": "If any input file does not exist, has a format that this build does not support or is a ROOT file that cannot be read, no run succeeds: an error for the first such file is reported, no event is read, no weight is changed, and the output files for this input file and for later ones are not touched. With support for STRIPPER XML files the command line program notices missing files and XML files without the required information before it changes any file.", "quantifier": "all lists of input files and positions of the file in it, all contents of the files, all settings, all builds, all interleavings of threads", "why_tests_cant": "Tests use one or two files. Where in the list the file is, what the files before it contain and which features are enabled make different parts of the code responsible for the error.", "anchors": ["src/io.rs:CombinedFileIO::new", "src/io.rs:CombinedFileIO::init", "src/io.rs:FileIO", "src/io.rs:detect_event_file_format", "src/stripper_xml.rs:extract_scaling", "src/bin/main.rs"]}
{"id": "C115", "title": "What is written to the log about cells is true", "statement": "After resampling with a cell collector, every message about a cell names a cell that was made, with its number of events and its radius or weight. Messages are ordered by headings and by decreasing radius, number of events or weight where the heading says so. With a new collector there are ten cells under each heading (or all cells, if there are fewer), no cell occurs twice under a heading, and the cells by creation order are the first ones of one thread. The messages agree with the map from events to cells that programs can ask for.", "quantifier": "all numbers of threads, all sequences of cells in each of them, all random choices, all previous uses of the collector", "why_tests_cant": "Tests use one thread and few cells, so that nothing is ever dropped or combined.", "anchors": ["src/cell_collector.rs:CellCollector::dump_info", "src/cell_collector.rs:CellCollector::event_cells", "src/cell_collector.rs:CellCollector::combine", "src/resampler.rs:Observer"]}
{"id": "C116", "title": "Builders use the last value of each option and defaults for the others", "statement": "A resampler made with DefaultResamplerBuilder or ResamplerBuilder uses, for each option, the value of the last call for this option, or the documented default if there is none, whatever other options are set before or after. If each option is set at most once the order of the calls does not matter. The command line program and the C interface resample with the options they were given.", "quantifier": "all sequences of calls, of any length and with any values", "why_tests_cant": "Some calls rebuild the whole object since its type changes, and could lose or mix up other options. Tests cover some orders of the calls.", "anchors": ["src/resampler.rs:ResamplerBuilder", "src/resampler.rs:DefaultResamplerBuilder", "src/resampler.rs:DefaultResampler", "src/bin/main.rs:cres_with_search", "src/c_api/cres.rs:cres_run_with"]}
{"id": "C117", "title": "Shell completions are written to where the shell looks for them", "statement": "The program for shell completions uses the shell that is asked for or else the one it is started from, and fails without writing anything if there is none. For bash and fish, the script for cres is in a file in which the shell looks for completions for cres, and no other file is changed. For other shells the scripts are written to standard output and no file is changed.", "quantifier": "all environment variables, home directories, working directories, parent processes and file systems", "why_tests_cant": "The result depends on the environment of the user. Nothing in the tests starts a shell.", "anchors": ["src/bin/shell_completion.rs:main", "src/bin/shell_completion.rs:get_parent_shell", "src/bin/shell_completion.rs:gen_bash_outfile", "src/bin/shell_completion.rs:gen_fish_outfile"]}
{"id": "C118", "title": "Observers are told the truth about cells", "statement": "When an observer is called for a cell, the radius is the largest distance of a member from the seed, no event is in the cell twice, and the sum of weights is the sum of the weights of the members.", "quantifier": "all events, distance functions, numbers of threads and interleavings", "why_tests_cant": "The sum of weights is calculated while the cell is built and can be out of date when the observer is called. Tests see few interleavings.", "anchors": ["src/cell.rs:nmembers", "src/cell.rs:nneg_weights", "src/cell.rs:radius", "src/cell.rs:weight_sum", "src/resampler.rs:resample", "src/resampler.rs:observe_cell"]}
{"id": "C119", "title": "Errors in the C interface are reported to the thread in which they occurred", "statement": "At any time, the error message that can be printed or copied is that of the last call in the same thread that has returned a nonzero value. Nothing is printed if there is none. Asking for the message changes nothing, and a buffer of the size that is returned for an empty buffer is large enough for the complete message. The logger can be initialised exactly once in a process, and later attempts return an error.", "quantifier": "all sequences of calls of the C interface in any number of threads and all messages", "why_tests_cant": "Tests of the C interface run in one thread with few calls. The claims are about all histories of calls.", "anchors": ["src/c_api/error.rs:cres_get_last_err", "src/c_api/error.rs:cres_print_last_err", "src/c_api/log.rs:cres_logger_from_env", "src/c_api/cres.rs:cres_run"]}
{"id": "C120", "title": "The number of records that input files declare need not be right", "statement": "STRIPPER XML files declare the number of records they contain. If there is enough memory for the records in the input files then reading starts, and all records are read, whatever number is declared.", "quantifier": "all input files, declared numbers, amounts of memory and builds", "why_tests_cant": "The declared number is only wrong in unusual files, for example if they were edited or written by a program that was interrupted. Which numbers are harmful depends on the memory and on the size of events.", "anchors": ["src/cres.rs:read_events", "src/io.rs:combine_size_hints", "src/io.rs:size_hint", "src/stripper_xml.rs:read_raw", "src/stripper_xml.rs:try_new"]}
{"id": "C121", "title": "The example distance functions compute what they describe", "statement": "The examples for user-defined distances compute the sum of E_fact * |E1 - E2| + |p1_x - p2_x| over all particles for events with the same particle types and numbers of particles, and infinity for other events. This is a pseudometric, so that the neighbour searches can be used.", "quantifier": "all pairs of events and all non-negative factors", "why_tests_cant": "The examples are not tested. Users start from them for their own distances.", "anchors": ["examples/user_distance.rs:distance", "examples/user_distance.c:my_distance"]}
{"id": "C122", "title": "Events can be compared and sorted", "statement": "Two events are equal if and only if they have the same id and the same particles, added in any order; weights do not matter, so that comparisons have the same result before and after resampling. Events are totally ordered, consistently with equality, first by id. Equal events have distance 0 and the same distance to any other event.", "quantifier": "all events, orders of adding particles, weights", "why_tests_cant": "Consistency of an order and its independence of how events were built concern all pairs and triples of events.", "anchors": ["src/event.rs:Event", "src/event.rs:compress_outgoing", "src/distance.rs:EuclWithScaledPt"]}
{"id": "C123", "title": "Errors quote the beginning of invalid records", "statement": "Errors about records that cannot be read quote the beginning of the record: the first 100 characters, or all if there are fewer. Characters of several bytes are never cut, so reporting an error cannot fail itself, and the quoted text has at most 400 bytes however long the record is.", "quantifier": "all records", "why_tests_cant": "Tests use few short records in ASCII. Cutting text at byte positions is a common cause of panics that needs unusual input.", "anchors": ["src/util.rs:take_chars", "src/hepmc2.rs:ParseEntry", "src/lhef.rs:ParseEntry", "src/stripper_xml.rs:ParseEntry"]}
{"id": "C124", "title": "Unweighting does not change expected predictions", "statement": "Unweighting is unbiased: if events are left after unweighting, then the expected value of the prediction for each observable, a weighted sum over events, is the prediction before unweighting. The expected number of events that are left is the sum of the probabilities min(1, |w|/minweight) with which events are kept.", "quantifier": "all samples, thresholds and observables; expectation over all independent uniform random numbers", "why_tests_cant": "The expected value is an integral over all sequences of random numbers; tests use a single seed.", "anchors": ["src/unweight.rs:Unweighter::unweight"]}
{"id": "C125", "title": "Regions contain similar numbers of events", "statement": "cres-partition divides events evenly: each region of the partition contains the same number of the negative-weight events from which it was made, up to a number that depends only on the number of regions.", "quantifier": "all event samples, distances, numbers of regions and results of parallel sorting", "why_tests_cant": "Each split has to be even for every sample, and each event has to end up in the region it was sorted into although it is classified again by comparing distances.", "anchors": ["src/bin/partition.rs:main", "src/partition.rs:VPTreePartition::region", "src/vptree.rs:VPTree::from_par_iter_with_dist_and_depth"]}
{"id": "C126", "title": "Partition files are read as they were written", "statement": "cres-classify-events can read each partition file that cres-partition writes, with any compression option, and uses the clustering, the bisections and the distance parameter that cres-partition has stored in it.", "quantifier": "all clusterings, partitions, compression settings and builds of the two programs", "why_tests_cant": "Files contain arbitrary events and nested optional settings, and are written and read by different programs; there are no tests with compressed partition files.", "anchors": ["src/bin/partition.rs:main", "src/bin/classify-events.rs:main", "src/partition.rs:VPTreePartition", "src/event.rs:Event", "src/cluster.rs:DefaultClustering"]}
{"id": "C127", "title": "cres-classify-events writes every ntuple record to exactly one output file", "statement": "If all records of a ROOT ntuple can be read and converted, then cres-classify-events writes one ntuple for each region, which contains exactly the records of events in that region, unchanged and in the order of the input. Sums over all records, for example of weights, are conserved. If a record cannot be read or converted, the program reports this error, and the output files contain the records before it.", "quantifier": "all ntuples, conversions, clusterings and partitions, including partitions that were not made by cres-partition", "why_tests_cant": "Records can be distributed over regions in any way, with an error at any position.", "anchors": ["src/bin/classify-events.rs:Classifier::classify_ntuple_records", "src/partition.rs:VPTreePartition::region"]}
{"id": "C128", "title": "If cres-classify-events reports success, then the output files are complete", "statement": "Without write errors, cres-classify-events leaves complete output files unless it is interrupted. However writing fails and whenever the program is interrupted, each output file contains a first part of the complete output and nothing else. If the program reports success, then no output file is incomplete.", "quantifier": "all input files, partitions, sizes of buffers, positions of write errors and of interruptions", "why_tests_cant": "Write errors and interruptions can occur at any position of any output file, also when buffers are emptied at the end.", "anchors": ["src/bin/classify-events.rs:Classifier::classify_byte_records", "src/bin/classify-events.rs:write_footer", "src/bin/classify-events.rs:make_byte_writers"]}
{"id": "C129", "title": "Partitions depend exactly on the events with negative weight", "statement": "cres-partition succeeds exactly if all input files can be read, all events with negative weight can be clustered, a partition can be made from these events and the output file can be created. Then the output file contains that partition and no other file is changed. Events with other weights and the distribution of events over files have no influence. If the program fails, no file is changed, so that an older partition file is still there.", "quantifier": "all numbers and contents of input files, including missing ones and ones with invalid records, all clusterings and all contents of other files", "why_tests_cant": "Events with negative weight and errors can be at any positions in any number of files.", "anchors": ["src/bin/partition.rs:main"]}
{"id": "C130", "title": "cres-classify-events does not change its input files and can be run again", "statement": "cres-classify-events leaves the contents of all its input files unchanged, also if they are in the output directory, and changes no files other than its output files. What earlier runs, including interrupted ones, have left in output files does not influence results, so that the program can be run again.", "quantifier": "all names and places of input files and output directories, contents of files and partitions", "why_tests_cant": "Input files can have any names, including those of output files for other input files.", "anchors": ["src/bin/classify-events.rs:main", "src/bin/classify-events.rs:make_byte_writers"]}
{"id": "C131", "title": "Resampling makes weights more similar", "statement": "Resampling does not increase the sum of any convex function of the weights, so that weights stay between the smallest and the largest one before and the effective number of events does not decrease. In the output files of a run without unweighting, this holds for convex functions that are smallest at 0, like powers of absolute values, and weights stay in every interval that contains 0 and all input weights.", "quantifier": "all convex functions, events, weights, cells, interleavings of threads and input files", "why_tests_cant": "There are infinitely many convex functions, for all of which inequalities have to hold for all inputs and all interleavings.", "anchors": ["src/resampler.rs:DefaultResampler::resample", "src/cell.rs:Cell::resample", "src/cres.rs:Cres::run"]}
{"id": "C132", "title": "Events at a small distance are similar", "statement": "For the default distance, every observable that is a sum of contributions of outgoing particles changes at most in proportion to the distance if the contributions change at most in proportion to the distance between momenta and vanish without momentum. In particular, scalar sums of transverse momenta and total momenta in any direction, for any set of particle types, differ by at most the distance. Events at distance 0 have the same particles with non-vanishing momenta. A larger parameter for transverse momenta does not decrease any distance, and increases distances at most by a factor sqrt(1 + parameter^2).", "quantifier": "all events with any numbers of particles and types, all parameters, all observables of this kind", "why_tests_cant": "It is a statement about all pairs of events and about infinitely many observables, with an optimal assignment for each particle type.", "anchors": ["src/distance.rs:EuclWithScaledPt", "src/distance.rs:pt_dist", "src/distance.rs:set_distance"]}
{"id": "C133", "title": "Histograms are preserved if events with negative weight are far from edges of bins", "statement": "In a run with the default distance and without unweighting, the content of all bins of a histogram is the same in the output files as in the input files if no event with negative weight is closer to an edge of a bin than the maximum cell size. This holds for scalar sums of transverse momenta and other observables that are sums of contributions of particles after clustering, if the contributions change at most as much as momenta (with an additional factor otherwise), and for all weights.", "quantifier": "all input files in text formats, edges, observables of this kind, parameters of the distance, seeds, searches and interleavings of threads", "why_tests_cant": "It relates the optimal assignment of particles, cells and the files of complete runs for all inputs, observables and interleavings.", "anchors": ["src/distance.rs:EuclWithScaledPt", "src/resampler.rs:DefaultResampler::resample", "src/cell.rs:Cell::resample", "src/cluster.rs:DefaultClustering::cluster", "src/event.rs:EventBuilder::rescale_energies"]}
{"id": "C134", "title": "Statistical uncertainties of bins do not increase", "statement": "In a run without unweighting, the sum of squares of weights in a bin of a histogram (the square of its statistical uncertainty), and that of any other convex function which vanishes at 0, is not larger in the output files than in the input files, if there are no edges of the bin within the maximum cell size around events with negative weight. With the default distance it is sufficient that no event with negative weight is closer to an edge than the maximum cell size, for the observables of C133.", "quantifier": "all input files in text formats, bins, convex functions, weights, seeds, searches and interleavings of threads", "why_tests_cant": "Inequalities for infinitely many convex functions have to hold for all inputs and all interleavings.", "anchors": ["src/resampler.rs:DefaultResampler::resample", "src/cell.rs:Cell::resample", "src/cres.rs:Cres::run", "src/distance.rs:EuclWithScaledPt"]}
{"id": "C135", "title": "Weights that are not negative do not become negative", "statement": "In a run without unweighting, an event whose weight in the input files is not negative has no negative weight in the output files, if the sum of all weights is not negative.", "quantifier": "all input files in text formats, distances, maximum cell sizes, strategies, searches and numbers of threads", "why_tests_cant": "This has to hold for all weights, positions of events and orders in which cells are made.", "anchors": ["src/resampler.rs:DefaultResampler::resample", "src/cell.rs:Cell::resample", "src/bin/opt_cres.rs:Opt::max_cell_size"]}
{"id": "C136", "title": "Negative weights that are left after a run can be removed by a second run", "statement": "If the sum of the weights of events with particles is not negative, a run without unweighting, with any limit for the size of cells, leaves files from which a second run with the same definition of particles, on one thread and without a limit for the size of cells, removes all negative weights of events with particles.", "quantifier": "all input files in text formats, maximum cell sizes, numbers of threads and interleavings in the first run; distances may differ in the second run and events may be distributed over files differently", "why_tests_cant": "This has to hold for all results the first run can have, which depend on the limit and the schedule.", "anchors": ["src/resampler.rs:DefaultResampler::resample", "src/cres.rs:Cres::run", "src/bin/opt_cres.rs:Opt::max_cell_size"]}
{"id": "C137", "title": "Updating all weights in a single file gives a complete file", "statement": "If a new object for a single event file is given a list of new weights for all events, it writes the header, the records with the new weights in order and the end of the file, as an object for several files does, and returns the number of records written.", "quantifier": "all readable input files in text formats and lists of weights, also with more or fewer weights than records", "why_tests_cant": "This has to hold for all contents of files and numbers of weights.", "anchors": ["src/hepmc2.rs:FileIO::update_all_weights", "src/lhef.rs:FileIO::update_all_weights", "src/stripper_xml.rs:FileIO::update_all_weights", "src/traits.rs:UpdateWeights"]}
