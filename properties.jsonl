{"id": "C01", "title": "Index compression round-trips", "statement": "Compressing any list of 32-bit feature indexes and decompressing the resulting bytes gives back exactly the same list, whether or not the list is ascending, and the decoder consumes every byte of the code.", "quantifier": "every finite list of uint32 indexes", "why_tests_cant": "There are infinitely many lists; the boundaries between 1..5-byte codes and the wrap-around of negative differences are easily missed by samples (the shipped test uses 1000 random sorted values).", "anchors": ["include/sol/pario/compress.h: run_len_encode, run_len_decode, comp_index, decomp_index"]}
{"id": "C02", "title": "Binary data set round-trips", "statement": "Writing any sequence of data points with the binary writer and reading the file with the binary reader delivers the same points (labels, indexes, values, order), each with status OK, followed by end-of-file and nothing else.", "quantifier": "every finite sequence of data points with any int32 labels, any number of features below 2^64 bytes of code, any indexes, any 4-byte values", "why_tests_cant": "The claim ranges over all record sequences; record framing errors only show for particular lengths or byte patterns.", "anchors": ["src/sol/pario/binary_writer.cc: BinaryWriter::Write", "src/sol/pario/binary_reader.cc: BinaryReader::Next", "src/sol/pario/file_reader.cc: FileReader::Read"]}
{"id": "C03", "title": "A binary file cut at any byte never yields a point that was not written", "statement": "If a binary data file is cut at an arbitrary byte (crash or full disk while writing), reading it delivers a prefix of the points that were written and then end-of-file or a format error; it never delivers an extra or altered point with status OK.", "quantifier": "every sequence of points and every cut position in the file", "why_tests_cant": "Needs every crash point of every file; a test checks a handful of cuts.", "anchors": ["src/sol/pario/binary_reader.cc: BinaryReader::Next", "src/sol/pario/binary_writer.cc: BinaryWriter::Write", "src/sol/pario/file_reader.cc: FileReader::Read"]}
{"id": "C04", "title": "Decoding an arbitrary binary record is memory safe", "statement": "For any byte string stored as the index code of a record, decompression only reads bytes inside that string and only shifts by amounts that are defined for the type used; the record is either delivered with exactly the announced number of features or rejected with Invalid_Format.", "quantifier": "every byte string found in the code field of a record", "why_tests_cant": "Out-of-bounds reads and undefined shifts need particular bytes and may go unnoticed even when executed.", "anchors": ["include/sol/pario/compress.h: run_len_decode, decomp_index", "src/sol/pario/binary_reader.cc: BinaryReader::Next"]}
{"id": "C05", "title": "Text number parsing stays inside the line and terminates", "statement": "For every zero-terminated line, parsing a label, an index or a value reads no character past the terminator, terminates, and reports an end position inside the line that is not before the start position.", "quantifier": "every zero-terminated character string and every start position in it", "why_tests_cant": "A read past the end needs adversarial lines and usually does not crash a test.", "anchors": ["include/sol/pario/numeric_parser.h: strip_line, ParseInt, ParseUint, ParseFloat"]}
{"id": "C06", "title": "Integer labels and indexes parse to the written value", "statement": "The decimal text of any integer label is parsed to that integer, and the decimal text of any feature index is parsed to that index, with the end position at the next non-blank character after the digits; no arithmetic on the way leaves the range of the integer type.", "quantifier": "every int32 label and uint32 index, every following text that does not continue the number", "why_tests_cant": "2^32 values times all continuations; overflow in intermediate arithmetic is invisible to tests on wrapping hardware.", "anchors": ["include/sol/pario/numeric_parser.h: ParseInt, ParseUint", "src/sol/pario/svm_reader.cc", "src/sol/pario/csv_reader.cc"]}
{"id": "C07", "title": "Decimal values parse to the number they denote", "statement": "The text [sign]digits[.digits][e[sign]digits] is parsed to the number it denotes, except that decimals after the seventh are dropped, so the result differs from the denoted mantissa by less than 10^-7 and is never larger in magnitude.", "quantifier": "every well-formed decimal literal whose digits fit the accumulator", "why_tests_cant": "Unbounded set of literals; the seven-decimals cut-off interacts with exponents and signs.", "anchors": ["include/sol/pario/numeric_parser.h: ParseFloat"]}
{"id": "C08", "title": "libsvm data set round-trips", "statement": "A data point with ascending indexes written by the svm writer and read back by the svm reader has the same label and indexes and the values that the writer printed.", "quantifier": "every label, every ascending list of indexes, every list of printable values", "why_tests_cant": "Number formatting has corner cases for every magnitude; tests use a few small values.", "anchors": ["src/sol/pario/svm_writer.cc: SVMWriter::Write", "src/sol/pario/svm_reader.cc: SVMReader::Next", "include/sol/pario/numeric_parser.h"]}
{"id": "C09", "title": "The svm reader delivers sorted points and rejects malformed lines", "statement": "For every input line the svm reader either reports Invalid_Format or delivers a point whose indexes are in non-decreasing order and whose (index,value) pairs are exactly those on the line; a feature without ':' or without digits is never accepted.", "quantifier": "every input line", "why_tests_cant": "Ranges over all character strings.", "anchors": ["src/sol/pario/svm_reader.cc: SVMReader::Next", "src/sol/pario/data_point.cc: DataPoint::Sort"]}
{"id": "C10", "title": "csv data set round-trips", "statement": "A data point whose feature indexes are ascending, start at 1 or later and carry non-zero values, written by the csv writer and read back by the csv reader, has the same label, indexes and printed values; points with index 0 do not lose their other features.", "quantifier": "every label, every ascending list of indexes below the declared dimension, every list of values", "why_tests_cant": "Depends on every combination of gaps and positions.", "anchors": ["src/sol/pario/csv_writer.cc: CSVWriter::Write, SetExtraInfo", "src/sol/pario/csv_reader.cc: CSVReader::Next, LoadHeader"]}
{"id": "C11", "title": "Lines of any length are read whole", "statement": "Reading a text file line by line returns exactly the lines of the file, whatever their length and whatever the current buffer capacity, including a last line without newline, and then end-of-file.", "quantifier": "every text file without zero bytes, every line length, every buffer capacity of at least two", "why_tests_cant": "Buffer-boundary errors only appear for lengths around each doubling of the buffer.", "anchors": ["src/sol/pario/file_reader.cc: FileReader::ReadLine"]}
{"id": "C12", "title": "Sorting a data point orders it and keeps its features", "statement": "Sorting a data point terminates with the indexes in non-decreasing order and leaves the multiset of (index,value) pairs, the label, and already sorted points unchanged; no element outside the point is read or written.", "quantifier": "every data point, with or without repeated indexes", "why_tests_cant": "All permutations and duplicates of all sizes; an in-place parallel-array quicksort has boundary cases no sample covers.", "anchors": ["src/sol/pario/data_point.cc: DataPoint::Sort, DataPoint::IsSorted, QuickSort"]}
{"id": "C13", "title": "Growing a vector keeps its contents", "statement": "Any sequence of resize, reserve, push_back, pop_back and clear operations on a vector behaves like the same operations on an abstract sequence: sizes agree, every element that was not removed keeps its value, new storage is zero, capacity never shrinks and is always at least the size.", "quantifier": "every sequence of operations with every size", "why_tests_cant": "All operation histories; the growth loop has thresholds at 2^30 elements no test can allocate.", "anchors": ["include/sol/math/vector.h: push_back, pop_back, resize, reserve", "include/sol/math/matrix.h: resize, reserve, clear", "include/sol/math/matrix_storage.h: resize"]}
{"id": "C14", "title": "Shared storage is released exactly once, and never while in use", "statement": "Under every sequence of constructing, copying, assigning and destroying vectors, the storage behind a live vector is never freed, storage is freed exactly once, and it is freed as soon as the last vector using it is gone.", "quantifier": "every history of copy, assignment and destruction over any number of handles", "why_tests_cant": "All aliasing histories; a double free or leak needs a specific order.", "anchors": ["include/sol/math/matrix.h: operator=, release, copy constructor", "include/sol/math/sparse_vector.h", "include/sol/math/matrix_storage.h"]}
{"id": "C15", "title": "Clone is a deep copy", "statement": "A cloned data point equals the original and later changes to either one do not show in the other, while a copied data point shares the features of the original.", "quantifier": "every data point and every later sequence of edits to either", "why_tests_cant": "Needs all edit histories.", "anchors": ["src/sol/pario/data_point.cc: DataPoint::Clone", "include/sol/pario/data_point.h"]}
{"id": "C16", "title": "Sparse dot product is the sum over features inside the weight vector", "statement": "The score w.x of a weight vector and a data point equals the sum of weight times value over the features whose index is below the size of the weight vector, reads no weight outside the vector, and does not change when zero weights are appended to the vector.", "quantifier": "every weight vector and every data point with ascending indexes", "why_tests_cant": "All dimension and index combinations; an out-of-bounds read is silent.", "anchors": ["include/sol/math/matrix_expression.h: dotmul", "include/sol/math/sparse_vector.h", "src/sol/model/online_linear_model.cc: TrainPredict, Predict"]}
{"id": "C17", "title": "A sparse update changes exactly the listed coordinates", "statement": "Applying a sparse update to a weight vector changes each coordinate listed in the data point by the given amount and leaves every other coordinate as it was.", "quantifier": "every weight vector, every data point with strictly ascending in-range indexes, every operator", "why_tests_cant": "All vectors and index sets.", "anchors": ["include/sol/math/matrix_expression.h: CalcExp", "include/sol/math/expression.h"]}
{"id": "C18", "title": "Soft-thresholding composes and shrinks", "statement": "Truncating by a and then by b (both non-negative) equals truncating once by a+b; truncation never changes the sign, never increases magnitude, gives zero exactly when the magnitude is at most the threshold.", "quantifier": "all values and all non-negative thresholds (exact arithmetic)", "why_tests_cant": "Statement over all reals; lazy regularisation is only right because of it.", "anchors": ["include/sol/math/operator.h: truncate"]}
{"id": "C19", "title": "The feature heap keeps the K best features", "statement": "After building the heap and offering every feature to it, the features kept are K distinct features, and each kept value is at least (min-heap) or at most (max-heap) every value not kept; position and identity tables stay inverse to each other.", "quantifier": "every array of values, every K with 1 <= K <= N", "why_tests_cant": "All value arrays and sizes; sift-down errors need particular shapes.", "anchors": ["include/sol/util/heap.h: Init, BuildHeap, AdjustHeap, UpdateHeap, isTopK"]}
{"id": "C20", "title": "The blocking queue is first-in first-out without loss or duplication", "statement": "Under every interleaving of any number of producers and consumers the items taken out are, in order, a prefix of the items put in, and the remaining items are exactly those in the queue.", "quantifier": "every schedule of any number of threads, every capacity, including spurious wake-ups", "why_tests_cant": "A test sees a handful of schedules.", "anchors": ["include/sol/util/block_queue.h: Enqueue, Dequeue", "include/sol/util/monitor.h"]}
{"id": "C21", "title": "The blocking queue never overflows or underflows", "statement": "Under every interleaving and every spurious wake-up the number of stored items stays between 0 and the capacity; no slot is overwritten before it was taken and no slot is taken before it was filled, for single and for bulk operations.", "quantifier": "every schedule including spurious wake-ups", "why_tests_cant": "Spurious wake-ups and full-queue races are not reproducible in tests.", "anchors": ["include/sol/util/block_queue.h: Enqueue, Dequeue (single and bulk)"]}
{"id": "C22", "title": "The blocking queue loses no wake-up", "statement": "In every reachable state in which a consumer waits while an item is stored, or a producer waits while a slot is free, some thread that was already signalled or is running will be able to proceed: there is no state where all threads sleep although one of them could make progress.", "quantifier": "every schedule of any number of single-item producers and consumers", "why_tests_cant": "Lost wake-ups occur in rare schedules only.", "anchors": ["include/sol/util/block_queue.h", "include/sol/util/monitor.h", "include/sol/util/mutex.h"]}
{"id": "C23", "title": "The data iterator delivers every point once, in order", "statement": "Under every interleaving of the reading thread with the caller, the points handed out by Next are exactly the points of the added files, in the order the files were added, each file repeated for its number of passes, up to the first read error of a file.", "quantifier": "every schedule, every list of files, every batch size >= 1 and number of batches >= 1, every number of passes", "why_tests_cant": "All schedules and all data sizes relative to batch size.", "anchors": ["src/sol/pario/data_iter.cc: DataIter::Next, AddReader", "src/sol/pario/data_read_task.cc: DataReadTask::run", "include/sol/pario/mini_batch.h"]}
{"id": "C24", "title": "The data iterator finishes", "statement": "A caller that repeatedly calls Next, returning each batch, never blocks forever: in every reachable state some step is enabled until Next has returned null, every schedule is finite, null is returned only after all points were delivered, further calls return null again, and no batch exceeds the batch size.", "quantifier": "every schedule, every list of finite files, every batch size and batch count >= 1", "why_tests_cant": "Deadlock freedom is a statement over all schedules.", "anchors": ["src/sol/pario/data_iter.cc", "src/sol/pario/data_read_task.cc", "include/sol/util/block_queue.h"]}
{"id": "C25", "title": "Destroying a data iterator terminates", "statement": "Destroying a data iterator terminates, whatever the state of the reading thread.", "quantifier": "every schedule and every moment of destruction", "why_tests_cant": "Depends on the scheduling of the reader thread against the destructor.", "anchors": ["src/sol/pario/data_iter.cc: DataIter::~DataIter", "src/sol/pario/data_read_task.cc: DataReadTask::run"]}
{"id": "C26", "title": "Loss values are consistent", "statement": "Every loss is non-negative, is zero when the example is classified correctly with the required margin, and the loss reported together with the gradient equals the loss reported by the loss function itself.", "quantifier": "every score vector, label and margin", "why_tests_cant": "All reals; agreement between two separately written functions.", "anchors": ["src/sol/loss/bool_loss.cc", "src/sol/loss/hinge_loss.cc", "src/sol/loss/logistic_loss.cc", "src/sol/loss/square_loss.cc"]}
{"id": "C27", "title": "Reported gradients are subgradients", "statement": "For the convex losses (hinge, max-score hinge, logistic, square) the reported gradient is a subgradient of the loss in the scores: moving the scores changes the loss by at least the inner product with the gradient.", "quantifier": "every pair of score vectors and every label", "why_tests_cant": "Statement over all pairs of reals.", "anchors": ["src/sol/loss/hinge_loss.cc", "src/sol/loss/logistic_loss.cc", "src/sol/loss/square_loss.cc"]}
{"id": "C28", "title": "Multi-class gradients move the true class up and conserve mass", "statement": "Whenever a multi-class loss is positive its gradient is -1 (or at most 0) on the true class, non-negative on the others, and sums to zero, so adding a constant to all scores leaves loss and gradient unchanged.", "quantifier": "every score vector, every true class", "why_tests_cant": "All reals and all class counts.", "anchors": ["src/sol/loss/bool_loss.cc", "src/sol/loss/hinge_loss.cc", "src/sol/loss/logistic_loss.cc"]}
{"id": "C29", "title": "Training counters and error rate are exact", "statement": "After training on any sequence of examples the number of processed examples, updates and errors equals the number of examples, of examples that triggered an update and of examples predicted wrongly; the reported error rate is errors over examples and lies in [0,1].", "quantifier": "every example sequence, every algorithm step function, lazy and non-lazy update, with and without active learning", "why_tests_cant": "Ranges over all training histories.", "anchors": ["src/sol/model/online_model.cc: Train, Iterate", "src/sol/model/online_linear_model.cc: Iterate"]}
{"id": "C30", "title": "The model changes only when the rule says so", "statement": "An example changes the weights of a margin algorithm only if its loss is positive (or, with lazy update, only if it is misclassified); an example skipped by active learning changes neither weights nor the step counter.", "quantifier": "every model state and example", "why_tests_cant": "All states.", "anchors": ["src/sol/model/online_linear_model.cc: Iterate"]}
{"id": "C31", "title": "Seeing new features does not change old predictions", "statement": "When an example with larger feature indexes enlarges the model, the dimension never shrinks, all weight vectors have the model dimension, new weights are zero and the scores of all examples stay the same.", "quantifier": "every model and every example sequence", "why_tests_cant": "All growth histories.", "anchors": ["src/sol/model/online_linear_model.cc: update_dim", "src/sol/model/online_model.cc: BeginTrain, Iterate"]}
{"id": "C32", "title": "Perceptron mistake bound", "statement": "If some unit vector separates the examples with margin g and all examples have norm at most R, the perceptron updates at most (R/g)^2 times, whatever the order and length of the stream.", "quantifier": "every stream of examples of every length (exact arithmetic)", "why_tests_cant": "A bound over all infinite streams.", "anchors": ["src/sol/model/olm/perceptron.cc: Perceptron::Update", "src/sol/model/online_linear_model.cc: Iterate", "src/sol/loss/bool_loss.cc"]}
{"id": "C33", "title": "Passive-aggressive updates fix the example just seen", "statement": "After a PA update the same example has zero hinge loss; PA-I never moves further than its aggressiveness C allows, and PA-II moves strictly less than PA; the update is the smallest that achieves it.", "quantifier": "every weight vector, every example with non-zero features, every C > 0 (exact arithmetic)", "why_tests_cant": "All reals.", "anchors": ["src/sol/model/olm/pa.cc", "src/sol/loss/hinge_loss.cc"]}
{"id": "C34", "title": "An example without features does not destroy the model", "statement": "Training on an example that has no (or only zero) features leaves all weights finite numbers.", "quantifier": "every model state", "why_tests_cant": "Needs reasoning about division by zero in every algorithm.", "anchors": ["src/sol/model/olm/pa.cc: PA::Update", "src/sol/model/model.cc: PreProcess"]}
{"id": "C35", "title": "Lazy L1 regularisation equals eager L1 regularisation", "statement": "With a constant learning rate, FOBOS-L1 with its per-feature postponed truncation makes the same predictions at every step as the algorithm that truncates every weight after every example, and ends with the same weights after EndTrain.", "quantifier": "every example stream (exact arithmetic)", "why_tests_cant": "Equality of two algorithms over all histories.", "anchors": ["src/sol/model/olm/ogd.cc: FOBOS_L1", "src/sol/model/regularizer.cc: LazyOnlineL1Regularizer", "include/sol/math/operator.h: truncate"]}
{"id": "C36", "title": "Truncated gradient treats all classes alike", "statement": "Sparse online learning by truncated gradient applies its periodic truncation to the weight vector of every class.", "quantifier": "every multi-class model state and example", "why_tests_cant": "A per-class state error only shows for a class other than the first after k steps.", "anchors": ["src/sol/model/olm/ogd.cc: STG::TrainPredict"]}
{"id": "C37", "title": "Feature-selection algorithms respect the budget", "statement": "With a budget of B features, after every training example at most B features (bias excluded) have a non-zero weight in any class.", "quantifier": "every example stream with indexes >= 1, every B >= 1, any floating-point behaviour", "why_tests_cant": "All histories; the budget invariant spans heap, weights and dimension growth.", "anchors": ["src/sol/model/olm/ogd.cc: PET", "src/sol/model/olm/fofs.cc", "src/sol/model/olm/arow.cc: SOFS", "src/sol/model/olm/ada_fobos.cc: AdaFOBOS_OFS", "src/sol/model/olm/ada_rda.cc: AdaRDA_OFS", "include/sol/util/heap.h"]}
{"id": "C38", "title": "Confidence variances stay positive and never grow", "statement": "For AROW, SOFS, CW and ECCW every per-feature variance stays strictly positive, never exceeds its initial value and never increases.", "quantifier": "every example stream, every parameter accepted by the model (exact arithmetic)", "why_tests_cant": "All histories.", "anchors": ["src/sol/model/olm/arow.cc", "src/sol/model/olm/cw.cc", "src/sol/model/olm/eccw.cc"]}
{"id": "C39", "title": "Adaptive step sizes never increase", "statement": "For AdaFOBOS and AdaRDA the accumulated scale of each feature is at least delta, never decreases, and stays unchanged for features not in the example.", "quantifier": "every example stream (exact arithmetic)", "why_tests_cant": "All histories.", "anchors": ["src/sol/model/olm/ada_fobos.cc", "src/sol/model/olm/ada_rda.cc"]}
{"id": "C40", "title": "Projection keeps the weights in the ball", "statement": "After every update ALMA2 weights have norm at most 1 and FOFS weights have norm at most 1/sqrt(lambda).", "quantifier": "every example stream (exact arithmetic)", "why_tests_cant": "All histories.", "anchors": ["src/sol/model/olm/alma2.cc", "src/sol/model/olm/fofs.cc"]}
{"id": "C41", "title": "Dual averaging depends only on the gradient sum", "statement": "RDA keeps for every class the plain sum of the gradients seen; predictions are made with minus the step size times that sum, so for a given set of updates the order of the examples does not matter and evaluating the model in between does not influence training.", "quantifier": "every stream and every interleaving of training and evaluation (exact arithmetic)", "why_tests_cant": "All histories and permutations.", "anchors": ["src/sol/model/olm/rda.cc"]}
{"id": "C42", "title": "Evaluation does not change the course of training", "statement": "Calling Test or Predict between two training calls leaves the result of the later training unchanged.", "quantifier": "every pair of training streams and every evaluation stream", "why_tests_cant": "All interleavings of train and test calls.", "anchors": ["src/sol/model/model.cc: Test", "src/sol/model/olm/ogd.cc: EndTrain", "src/sol/model/olm/rda.cc: EndTrain"]}
{"id": "C43", "title": "Labels are calibrated consistently", "statement": "For a two-class model every label is mapped to +1 (label 1) or -1 (anything else), applying the mapping twice changes nothing, predictions are always in the same label set, and for multi-class models the predicted label is the smallest class with the highest score.", "quantifier": "every label, every score vector", "why_tests_cant": "All labels and scores.", "anchors": ["src/sol/model/model.cc: PreProcess, CalibrateLabel", "src/sol/model/online_linear_model.cc: Predict"]}
{"id": "C44", "title": "Pre-selected features are the only ones used", "statement": "With a pre-selected feature list the scores depend only on the values of listed features; without a list no feature is dropped.", "quantifier": "every list of indexes >= 1 and every example", "why_tests_cant": "All lists and examples.", "anchors": ["src/sol/model/model.cc: LoadPreSelFeatures, FilterFeatures"]}
{"id": "C45", "title": "Normalisation gives unit norm and keeps the direction", "statement": "L1 or L2 normalisation of an example with at least one non-zero value gives norm exactly 1 (exact arithmetic), keeps indexes and signs, and applying it twice equals applying it once.", "quantifier": "every example with a non-zero value", "why_tests_cant": "All reals.", "anchors": ["src/sol/model/model.cc: PreProcess"]}
{"id": "C46", "title": "Saving and loading keeps the model", "statement": "Loading a saved model gives the same dimension, hyper-parameters and weights up to the printed precision, so it makes the same predictions as the model that was saved.", "quantifier": "every model state reachable through the API", "why_tests_cant": "All models, all parameter settings.", "anchors": ["src/sol/model/model.cc: Save, Load, GetModelInfo, SetModelInfo", "src/sol/model/online_model.cc: GetModelInfo, SetModelInfo", "src/sol/model/online_linear_model.cc: GetModelParam, SetModelParam"]}
{"id": "C47", "title": "Loading any file terminates", "statement": "Loading a model from any file terminates, with a model or with an error.", "quantifier": "every file content", "why_tests_cant": "Ranges over all file contents.", "anchors": ["src/sol/model/model.cc: Model::Load"]}
{"id": "C48", "title": "A rejected parameter leaves the model as it was", "statement": "When setting a parameter fails with an invalid-argument error the model behaves as if the call had not been made.", "quantifier": "every model state, parameter name and value", "why_tests_cant": "All states and values.", "anchors": ["src/sol/model/model.cc: SetParameter", "src/sol/model/online_model.cc: SetParameter", "src/sol/model/olm/*.cc: SetParameter"]}
{"id": "C49", "title": "Splitting puts every point in exactly one fold", "statement": "Splitting a data set into k folds writes contiguous blocks whose concatenation is the whole data set in order; every fold except the last non-empty one has the same size.", "quantifier": "every data set size and every k >= 1", "why_tests_cant": "All sizes; single-precision rounding only matters above 2^24 points.", "anchors": ["src/sol/tools.cc: split"]}
{"id": "C50", "title": "Shuffling and conversion keep the data", "statement": "Shuffling writes a permutation of the input points; converting between formats keeps number, order, labels and features (or their binarisation); converting to csv uses the dimension of the whole input.", "quantifier": "every data set", "why_tests_cant": "All data sets.", "anchors": ["src/sol/tools.cc: shuffle, convert", "tools/concat.cc"]}
{"id": "C51", "title": "Analysis reports exact counts", "statement": "Analysing a data set reports the number of points, the total number of features, the largest index, the number of distinct indexes and, for each label, the number of points with it.", "quantifier": "every data set", "why_tests_cant": "All data sets.", "anchors": ["src/sol/tools.cc: analyze"]}
{"id": "C52", "title": "String helpers", "statement": "Splitting a string at a separator gives the maximal separator-free pieces in order, none of them empty; lower-casing changes only ASCII capitals and is idempotent; class lookup ignores case.", "quantifier": "every string and separator", "why_tests_cant": "All strings.", "anchors": ["include/sol/util/str_util.h: split, strip, lower", "src/sol/util/reflector.cc"]}
{"id": "C53", "title": "In-memory arrays are handed over exactly", "statement": "The path that encodes an in-memory dense or sparse matrix decodes to the same addresses and sizes, and reading the matrix delivers one point per row with exactly the non-zero entries at index column+1.", "quantifier": "every matrix size, address and content", "why_tests_cant": "All pointer values and matrices.", "anchors": ["src/sol/pario/numpy_reader.cc", "src/sol/pario/csr_matrix_reader.cc"]}
{"id": "C54", "title": "Training and evaluation stay inside their arrays", "statement": "For every online algorithm, any configuration and any stream of examples with ascending feature indexes below 2^32-1 and labels in the class range, training followed by evaluation completes without out-of-bounds access and without exception, and all vectors keep the model dimension.", "quantifier": "every algorithm, configuration, model of consistent shape, stream and floating-point behaviour", "why_tests_cant": "All algorithms on all streams; an out-of-bounds read often goes unnoticed in a test.", "anchors": ["src/sol/model/online_linear_model.cc: Iterate, update_dim", "src/sol/model/olm/*.cc", "src/sol/model/regularizer.cc", "include/sol/math/matrix_expression.h"]}
{"id": "C55", "title": "Feature selection respects the budget when training continues from a loaded model", "statement": "When a feature-selection algorithm with budget B starts training from a model that already has weights, at most B features (bias excluded) have a non-zero weight once an example has led to an update.", "quantifier": "every starting model, every example stream with indexes >= 1, every B >= 1", "why_tests_cant": "Needs a model whose weights sit outside the first B features; ordinary tests train from scratch.", "anchors": ["src/sol/model/olm/ogd.cc: PET::BeginTrain", "src/sol/model/olm/arow.cc: SOFS::BeginTrain", "include/sol/util/heap.h: Init"]}
{"id": "C56", "title": "Accepted parameters take effect and change nothing else", "statement": "When setting a parameter is accepted, the model then reports exactly the given value for it, and every other reported setting and all weights are as before.", "quantifier": "every model class, state, parameter name and text", "why_tests_cant": "All classes, names and texts; a side effect on an unrelated setting goes unnoticed unless that very pair is tested.", "anchors": ["src/sol/model/model.cc: SetParameter, GetModelInfo", "src/sol/model/online_model.cc: SetParameter, GetModelInfo", "src/sol/model/olm/*.cc: SetParameter, GetModelInfo"]}
{"id": "C57", "title": "Settings survive the JSON text", "statement": "The writer's output for any value is JSON text, and the reader turns it back into the value that was written (real numbers to six significant digits).", "quantifier": "every value: strings of any bytes, integers, real numbers, objects nested to any depth", "why_tests_cant": "All values, all bytes in strings, all depths.", "anchors": ["external/json/jsoncpp.cpp: StyledStreamWriter, valueToString, valueToQuotedString, Reader", "src/sol/model/model.cc: Save"]}
{"id": "C58", "title": "The JSON reader ends, and reads JSON", "statement": "The reader ends on every text; every JSON text is read to the value it stands for, and other texts are refused.", "quantifier": "every text, whatever the memory behind it holds", "why_tests_cant": "All byte strings; error recovery loops over the rest of the text and has to end on each of them.", "anchors": ["external/json/jsoncpp.cpp: Reader::parse, readValue, readObject, readArray, recoverFromError, decodeNumber, decodeString"]}
{"id": "C59", "title": "The command line is taken as it is written", "statement": "A command line is accepted exactly if it consists of words and options in one of the forms --name=value, --name value, --name, -abc, -abc value, with values that the option can take, and all required options; each option then has the last value given for it or its default, and every other argument is passed on as a word, in order.", "quantifier": "every table of options without duplicate names, every list of arguments", "why_tests_cant": "All argument lists and option tables.", "anchors": ["external/cmdline/cmdline.h: parser::parse, set_option, exist, get"]}
{"id": "C60", "title": "The executables do what they are asked for, or report failure", "statement": "sol_train and sol_test end with status 0 exactly if they have trained or tested the model asked for, with all parameters asked for set in order, on the file, format, passes and sizes asked for, and have written the output asked for; in every other case, except for help and lists, the status is not 0.", "quantifier": "every command line and every behaviour of the file system", "why_tests_cant": "All command lines and parameter texts, with every way a file can fail.", "anchors": ["tools/sol_train.cc: main, train, getparser", "tools/sol_test.cc: main, test, getparser", "include/sol/util/str_util.h: split, strip"]}
{"id": "C61", "title": "Batches and threads do not influence training or testing", "statement": "The model, the progress reports, the lines written and the error rate of Train and Test depend only on the examples in the files and their order, not on the batch size, the number of batches or the schedule of the reading threads.", "quantifier": "every algorithm, model, pre-processing, list of files and passes, sizes >= 1, every schedule", "why_tests_cant": "All batch sizes and all interleavings of the reading threads.", "anchors": ["src/sol/model/online_model.cc: Train", "src/sol/model/model.cc: Test", "src/sol/pario/data_iter.cc: Next"]}
{"id": "C62", "title": "Progress reports and test lines are right", "statement": "With a displayer set before training, Train calls back exactly after the numbers of examples that are powers of the base (or multiples of the step), in order, and once at the end, each time with the true counts of examples, iterations and updates and the error rate so far; Test writes one line per example with its label, the predicted label and the scores of Predict, and returns the share of lines whose labels differ.", "quantifier": "every algorithm without feature selection, state, stream, base >= 2 or step >= 1, also when training is continued", "why_tests_cant": "All stream lengths and continuation points; off-by-one errors show only at particular counts.", "anchors": ["src/sol/model/online_model.cc: ExpIterDisplayer, StepIterDisplayer, Train", "src/sol/model/model.cc: Test"]}
{"id": "C63", "title": "Online gradient descent has the regret of the theory", "statement": "In exact arithmetic, from a blank model, the cumulative loss of OGD before its updates exceeds that of any fixed linear function U by at most |U|^2/(2 eta) + eta k R^2 n/2 with a constant step, and by B/(2 eta_n) + k R^2/2 times the sum of the steps with decreasing steps and models within squared distance B of U; the losses weighted with any steps exceed those of U by at most (|U|^2 + k R^2 sum eta^2)/2. k is 1 for the hinge loss and 2 for the max-score hinge loss; the logistic loss adds 2 exp(-100) per example.", "quantifier": "every stream of examples of norm at most R, every U, every number of classes, every step size and schedule", "why_tests_cant": "All streams and all functions to compare with; a wrong sign or factor in the gradient shows only in the sum over long runs.", "anchors": ["src/sol/model/olm/ogd.cc: OGD::Update", "src/sol/loss/hinge_loss.cc: gradient", "src/sol/loss/logistic_loss.cc: gradient", "src/sol/model/online_linear_model.cc: Iterate"]}
{"id": "C64", "title": "The passive-aggressive algorithms keep the loss bounds of the theory", "statement": "In exact arithmetic, from a blank model without learnt bias, with hinge or max-score hinge loss: the squared losses of PA add up to at most k R^2 |U|^2 if U has no loss; the mistakes of PA-I times min(C, 1/(k R^2)) are at most |U|^2 + 2 C times the loss of U; the squared losses of PA-II add up to at most (k R^2 + 1/(2C)) (|U|^2 + 2 C times the squared losses of U). k is 1 for two classes, 2 for several.", "quantifier": "every stream of examples of norm at most R (PA and PA-I: not zero), every U, C and number of classes", "why_tests_cant": "All streams and all functions to compare with.", "anchors": ["src/sol/model/olm/pa.cc: PA::Update, PAI::Update, PAII::Update, PA::PA", "src/sol/loss/hinge_loss.cc: gradient"]}
{"id": "C65", "title": "The listed parameters make a copy of the model's settings", "statement": "The parameters that get_params lists are exactly the reported settings of the model, each once; setting them on a new model of the class, in any order, succeeds and gives a model that is listed the same, with the same settings up to printing with six digits. Setting one parameter gives status 0 exactly if the model accepts it.", "quantifier": "every model class, state, and order of the parameters", "why_tests_cant": "All classes, states and orders; one setting that is listed but refused breaks cloning of an estimator.", "anchors": ["src/sol/c_api.cc: sol_GetModelParameters, sol_SetModelParameter", "python/pysol.pyx: get_params, set_params", "src/sol/model/model.cc: GetModelInfo, SetParameter"]}
{"id": "C66", "title": "lsol_c does what it is asked for, or reports failure", "statement": "lsol_c ends with status 0 exactly if it has trained or tested the model asked for, with the parameters asked for, on the data asked for, and has written the output asked for; in every other case, except for help and lists, the status is not 0.", "quantifier": "every command line and every behaviour of the file system", "why_tests_cant": "All command lines and parameter texts, with every way a file can fail.", "anchors": ["tools/lsol_c.cc: main, train, test, getparser", "src/sol/c_api.cc: sol_CreateModel, sol_RestoreModel, sol_SaveModel, sol_SetModelParameter, sol_Train, sol_Test"]}
{"id": "C67", "title": "Predictions, scores and accuracies agree", "statement": "sol_Predict calls back once per example, in order, with the label, the predicted label and the scores that sol_Test writes for it, and returns the number of examples; SOL.score is the share of examples predicted right; sol_Train and sol_Test return the accuracy, as documented.", "quantifier": "every algorithm, model, pre-processing, list of batches", "why_tests_cant": "All streams and batches, for every algorithm.", "anchors": ["src/sol/c_api.cc: sol_Predict, sol_Test, sol_Train", "python/pysol.pyx: predict, score", "include/sol/c_api.h", "src/sol/model/model.cc: Test, Predict"]}
{"id": "C68", "title": "AdaFOBOS loses little against any fixed function", "statement": "Over any run of AdaFOBOS, the cumulative loss exceeds that of any fixed linear function U by at most the sum over weights of (delta U^2 + B^2 X)/(2 eta) + eta X, where X is the root of the sum of squares of the feature over the examples and B bounds the distance of weights from U; with bias rate for the bias.", "quantifier": "every sequence of examples, starting model, comparison function, number of classes, delta, eta; hinge losses and logistic loss", "why_tests_cant": "A statement over every sequence of examples and every comparison function in the reals.", "anchors": ["src/sol/model/olm/ada_fobos.cc: Update", "src/sol/loss/hinge_loss.cc", "src/sol/loss/logistic_loss.cc", "src/sol/model/online_linear_model.cc: Iterate"]}
{"id": "C69", "title": "AdaRDA loses little against any fixed function", "statement": "Over any run of AdaRDA from blank sums, with features of size at most 2 delta, the cumulative loss exceeds that of any fixed linear function U without bias by at most the sum over weights of (delta + X) U^2/(2 eta) + eta X, where X is the root of the sum of squares of the feature over the examples.", "quantifier": "every sequence of examples, comparison function, number of classes, delta, eta; hinge losses and logistic loss", "why_tests_cant": "A statement over every sequence of examples and every comparison function in the reals.", "anchors": ["src/sol/model/olm/ada_rda.cc: Update", "src/sol/loss/hinge_loss.cc", "src/sol/loss/logistic_loss.cc", "src/sol/model/online_linear_model.cc: Iterate"]}
{"id": "C70", "title": "RDA has logarithmic regret", "statement": "Over any run of RDA, the cumulative regularised loss (loss plus sigma/2 |w|^2) of the models that training would give before each example exceeds the regularised loss of any fixed linear function by at most 2 kappa R^2/sigma (1 + log T), plus sigma eps/2 |U|^2 for the tiny number added to the count. Training can always end.", "quantifier": "every sequence of T examples of norm at most R, comparison function, number of classes, sigma; hinge losses and logistic loss", "why_tests_cant": "A statement over every sequence of examples and every comparison function.", "anchors": ["src/sol/model/olm/rda.cc: Update, EndTrain", "src/sol/loss/hinge_loss.cc", "src/sol/loss/logistic_loss.cc", "src/sol/model/online_linear_model.cc: Iterate"]}
{"id": "C71", "title": "ALMA2 makes few updates and reaches a large margin", "statement": "Over any run of ALMA2 from a blank model, the root of one plus the number of updates is at most 1 + F (1 + C/P times the total by which any unit linear function u misses the margin g), with F = ((1-a)/a C + C^2 R^2/(2 P^2) + 1/2)/(C g/P); so separable data give at most (1+F)^2 - 1 updates, and after more passes than that every example has margin at least (1-a)/a P/(1+F).", "quantifier": "every sequence of examples of norm at most R with labels +1 or -1, every comparison function, C, P, alpha, margin; for the large margin every order in each pass", "why_tests_cant": "A statement over every sequence of examples, every order of the passes and every comparison function in the reals.", "anchors": ["src/sol/model/olm/alma2.cc: Update, BeginTrain", "src/sol/loss/hinge_loss.cc", "src/sol/model/online_linear_model.cc: Iterate"]}
{"id": "C72", "title": "Values in text files are read to the precision of a float", "statement": "The float that ParseFloat returns for a literal differs from the number it denotes by at most 2^-22 of it, besides the decimals after the seventh, which are cut off, and is infinite if the exponent is too large. A value printed with %g and read differs by at most 6/10^6 of it and prints the same again.", "quantifier": "every literal with digits that fit the accumulators, every float, every powf accurate to 2^-40", "why_tests_cant": "All literals and all floats, with three roundings; a wrong power or a lost digit shows only for some of them.", "anchors": ["include/sol/pario/numeric_parser.h: ParseFloat", "src/sol/pario/svm_writer.cc: Write", "src/sol/pario/csv_writer.cc: Write"]}
{"id": "C73", "title": "A data set survives being written to a file and read back", "statement": "A data set written to a file of any format (libsvm, csv, binary) and read from it again is the same data set: same labels, indexes and values, then end of file; and writing what was read gives the same bytes.", "quantifier": "every data set of floats, every format, every powf accurate to 2^-40", "why_tests_cant": "All data sets and all floats through printing, parsing and memory images; a lost digit or a wrong exponent shows only for some of them.", "anchors": ["src/sol/pario/svm_writer.cc: Write", "src/sol/pario/csv_writer.cc: Write, SetExtraInfo", "src/sol/pario/binary_writer.cc: Write", "src/sol/pario/svm_reader.cc: Next", "src/sol/pario/csv_reader.cc: Open, Next", "src/sol/pario/binary_reader.cc: Next"]}
{"id": "C74", "title": "The data tools write the data they were asked for, or report why not", "statement": "If converter, shuffle, split or concat returns 0, the files written hold the points of the input (in the same order, in some order, in consecutive blocks, one input after the other). If the input cannot be read or the output cannot be written, the status is not 0.", "quantifier": "every input and output format, every data set, every answer of the file system, every random order", "why_tests_cant": "All combinations of formats, data sets and failures of the file system; the failures are rare in tests.", "anchors": ["src/sol/tools.cc: convert, shuffle, split, analyze", "tools/concat.cc: main", "tools/converter.cc: main", "tools/split.cc: main", "src/sol/pario/data_read_task.cc: run"]}
{"id": "C75", "title": "The data tools do what their command lines say, and analyze reports the data set", "statement": "converter, shuffle, split and concat, started with any command line that gives the options they need, do with the files named there what C74 says (with a threshold: values 1 and -1, exactly); any other command line writes nothing. analyze writes the number of points, of features, the largest index, the number of different features, of classes, the share of the columns that are unused, and the number of points of each class.", "quantifier": "every command line, every input and output format, every data set, every answer of the file system, every random order", "why_tests_cant": "All command lines in the grammar of C59, combined with all data sets; a swapped option or a wrong count shows only for some of them.", "anchors": ["tools/analyze.cc: main", "tools/converter.cc: main", "tools/shuffle.cc: main", "tools/split.cc: main", "tools/concat.cc: main", "src/sol/tools.cc: analyze, convert", "include/cmdline/cmdline.h: parse_check"]}
{"id": "C76", "title": "Runs of sol_train and sol_test are deterministic and depend only on the points read", "statement": "Given the random numbers, every run of sol_train and sol_test with the same command line and files has the same end: exit status, files and bytes, however the reading thread and the training thread interleave. Another data file or format or number of passes gives the same end if it holds the same points, and so does any positive batch size and buffer size.", "quantifier": "every command line, every content of the files, every interleaving of the threads, every positive batch and buffer size", "why_tests_cant": "All schedules of two threads, all data files and all sizes; a lost or doubled batch shows only for some of them.", "anchors": ["tools/sol_train.cc: main", "tools/sol_test.cc: main", "src/sol/model/online_model.cc: Train", "src/sol/model/model.cc: Test, Save", "src/sol/pario/data_iter.cc", "src/sol/pario/data_read_task.cc: run"]}
{"id": "C77", "title": "A converted data set and a repeated data set train the same model", "statement": "sol_train on the binary file that converter makes of a data file writes the same bytes as on the data file itself; k passes over a file write the same model as one pass over a file with its points k times.", "quantifier": "every data file that is read to its end, every model, number of passes and parameter", "why_tests_cant": "All data sets through two programs and the formats; a lost bit in one value shows only for some of them.", "anchors": ["tools/converter.cc: main", "src/sol/tools.cc: convert", "tools/sol_train.cc: main", "src/sol/pario/binary_writer.cc: Write", "src/sol/pario/data_read_task.cc: run"]}
{"id": "C78", "title": "sol_train writes a trained model that can be loaded", "statement": "sol_train, started for any class, with a new or a loaded model, ends with status 0 and writes the model that the algorithm of its class computes from all the examples with the settings given; the file is loaded again as the same model, up to the six digits printed.", "quantifier": "every class, accepted parameters, data file, model file", "why_tests_cant": "All 24 classes with all parameters, and all data; undefined behaviour may go unnoticed when it happens.", "anchors": ["tools/sol_train.cc: main", "src/sol/model/online_model.cc: BeginTrain, Train", "src/sol/model/online_linear_model.cc: model_sparsity", "src/sol/model/model.cc: Save, Load", "src/sol/model/olm/ogd.cc: EndTrain"]}
{"id": "C79", "title": "sol_test writes one right line per example", "statement": "sol_test ends with status 0 and writes the header and one line per example, in order: the label, the predicted label, and the scores of the model for the example; the predicted label is the sign of the score, or the first class with the largest score. It accepts the file that sol_train has written.", "quantifier": "every class, model file, data file with ascending indexes, pre-processing", "why_tests_cant": "All models and data; ties, not-a-number scores and features beyond the model are rare in tests.", "anchors": ["tools/sol_test.cc: main", "src/sol/model/model.cc: Test, Load", "src/sol/model/online_linear_model.cc: Predict"]}
{"id": "C80", "title": "A model file has no more features than asked for", "statement": "A model of PET, FOFS, SOFS, AdaFOBOS-OFS or AdaRDA-OFS that shall keep B features, written by sol_train, has at most B features with a weight other than 0, and so has the model that is loaded from the file.", "quantifier": "every data file, every B of at least 1, every parameter, new and loaded models", "why_tests_cant": "All streams, with the order of the heap and the rounding of weights; a second feature shows only on some streams.", "anchors": ["tools/sol_train.cc: main", "src/sol/model/olm/ogd.cc: PET", "src/sol/model/olm/fofs.cc", "src/sol/model/olm/arow.cc: SOFS", "src/sol/model/olm/ada_fobos.cc: AdaFOBOS_OFS", "src/sol/model/olm/ada_rda.cc: AdaRDA_OFS"]}
{"id": "C81", "title": "Feature selection keeps the best features", "statement": "On every example PET does what OGD does from the same weights, SOFS what AROW, AdaFOBOS-OFS what AdaFOBOS and AdaRDA-OFS what AdaRDA does from the same weights and own state, and then deletes the weights of all features but B: those with the largest absolute weight (PET, FOFS), the smallest variance (SOFS), the largest scale (Ada variants), summed over the classes. FOFS keeps the features with the largest weights likewise.", "quantifier": "every stream of examples, every B of at least 1, two or more classes, every loss and parameter, from a new model", "why_tests_cant": "The heap must hold the best features after every prefix of every stream; a wrong exchange in the heap shows only when a deleted feature comes back later.", "anchors": ["src/sol/model/olm/ogd.cc: PET::Update", "src/sol/model/olm/fofs.cc: Update", "src/sol/model/olm/arow.cc: SOFS::Update", "src/sol/model/olm/ada_fobos.cc: AdaFOBOS_OFS::Update", "src/sol/model/olm/ada_rda.cc: AdaRDA_OFS::Update, EndTrain", "include/sol/util/heap.h: UpdateHeap"]}
{"id": "C82", "title": "Statements on vectors compute every element from the old values", "statement": "A statement `w op= expression` replaces every element of `w` by `op` of its old value and of the element of the expression at the same index, computed from the old values of all vectors, also where `w` occurs in the expression; with a sparse vector in the expression, the elements of its features. Nothing else changes, and operands of another shape are refused before anything is changed. Products and norms are the sums over all elements in order. The statements of all algorithms mean what the models of the algorithms say.", "quantifier": "every expression of any depth, every operator, every content of the vectors, destinations that occur in the expression, sparse vectors of any length", "why_tests_cant": "Expressions are trees of any depth evaluated lazily while the destination is overwritten; tests see a few of them on few values.", "anchors": ["include/sol/math/expression.h: BinaryMapExp, UnaryMapExp, ScalarExp", "include/sol/math/matrix_expression.h: CalcExp, dot, reduce, Norm2", "include/sol/math/matrix.h: operator=, Matrix, operator()", "include/sol/math/vector.h: slice", "include/sol/math/operator.h", "src/sol/model/olm"]}
{"id": "C83", "title": "Cross validation finds the best combination", "statement": "The search space holds every combination of the values given, once. Cross validation trains a new model per combination and fold on the other folds, all passes, and tests it on that fold; with any number of processes and any order of their steps it ends and every accuracy is in its place. The average of each combination is the mean over the folds, and the first combination with the greatest average is chosen.", "quantifier": "every grid of parameters, number of folds and processes, interleaving of processes, behaviour of the learner", "why_tests_cant": "The interleavings of processes and the grids are unbounded; a result in the wrong place is noticed by nobody.", "anchors": ["python/cv.py: SearchSpace.__init__, train_val_executor, CV.train_val, CV.__train_val_one_fold, CV.get_best_param"]}
{"id": "C84", "title": "A data set and its cache directory always belong together", "statement": "Beginning with an empty cache directory, after any sequence of calls of the methods of DataSet, and after creating the object again any number of times: the object has the number of points, the largest index and the number of labels of its file; convert, binarize and rand_path return the path of a file with the converted points, the values cut at the threshold, the points in some order; after split_file(n) the folds 0 to n-1 hold every point once, also when other numbers of folds were asked for before.", "quantifier": "every data set, format, number of folds, random order and sequence of calls", "why_tests_cant": "All sequences of calls; a stale file shows only after particular sequences.", "anchors": ["python/dataset.py: DataSet.__init__, __analyze_dataset, split_path, cache_path, convert, binarize, rand_path, split_file"]}
{"id": "C85", "title": "An object of the Python class tells about what it was taught", "statement": "Every sequence of calls of fit, score, predict, sparsity and save on one object has one outcome, whatever the reading threads do. Each call uses exactly the points of its own file, and tells about the model that a single training on the points of all fit calls so far makes, the one that sol_train saves: score and predict are those of sol_test, sparsity counts its weights, save writes it; the accuracy of fit is that of all fit calls so far.", "quantifier": "every sequence of calls, data file, class, parameters, batch and buffer size, interleaving of the threads", "why_tests_cant": "All sequences of calls and interleavings; which points a call used and which state a model file shows cannot be seen in a test that compares two numbers.", "anchors": ["python/pysol.pyx: SOL.fit, SOL.score, SOL.predict, SOL.sparsity, SOL.save, SOL.__load_data", "src/sol/c_api.cc: sol_LoadData, sol_Train, sol_Test, sol_Predict, sol_SaveModel, sol_model_sparsity", "src/sol/model/online_model.cc: OnlineModel::Train", "src/sol/model/model.cc: Model::Test, Model::Save", "src/sol/data/data_iter.cc: DataIter::AddReader, DataIter::Next"]}
{"id": "C86", "title": "Cross validation measures the accuracy on points that were held out", "statement": "CV.train_val on a data set splits it into folds that hold every point once, and gives every combination of values, for every fold, an accuracy: the share of the points of the fold that are predicted right, as sol_test reports it, by the model that sol_train makes of the points of the other folds, read as often as there are passes. The combination with the best average is chosen, whatever the processes, the reading threads and the random order do.", "quantifier": "every data set, class, grid of values, further settings, number of folds, passes and processes, interleaving", "why_tests_cant": "The loop is spread over processes, objects that are trained several times, files and reading threads; a point that is both learnt and tested only makes the accuracies a little better.", "anchors": ["python/cv.py: train_val_executor, CV.train_val, CV.get_best_param", "python/dataset.py: DataSet.split_file, DataSet.split_path", "python/pysol.pyx: SOL.fit, SOL.score", "src/sol/model/online_model.cc: OnlineModel::Train", "src/sol/model/model.cc: Model::Test"]}
{"id": "C87", "title": "Parameters may be given in any order", "statement": "A list of parameters with different names that is accepted in one order is accepted in every order and leaves the model in the same state; if it is refused in one order it is refused in every order. So SOL(algo, class_num, **params) does not depend on the order of the dictionary, and --params not on the order of its pieces.", "quantifier": "every class, model state, list of parameters and values, permutation", "why_tests_cant": "24 classes with about 30 parameters that partly act on the same variables and vectors, any state of the model, any number of parameters; in Python the order is that of a hash table.", "anchors": ["src/sol/model/model.cc: Model::SetParameter", "src/sol/model/online_model.cc: OnlineModel::SetParameter", "src/sol/model/regularizer.cc: SetParameter", "src/sol/model/olm: SetParameter", "python/pysol.pyx: SOL.set_params", "tools/sol_train.cc: train"]}
{"id": "C88", "title": "Training with Python uses the settings that were validated", "statement": "train of python/sol_train.py without cross validation makes a model of the given settings and trains it on the data set like sol_train does. With cross validation it adds to the given settings the combination of searched values that, together with them, has the best average accuracy on held out points, and trains the model with exactly these settings on the whole data set; the returned model and the file are those of sol_train. The best settings are also written into a file, from which a second call takes the same settings without cross validation.", "quantifier": "every data set, class, given settings, grid of values, number of folds, passes and processes, order of the dictionary, interleaving of processes and threads", "why_tests_cant": "The function spans a data set in files, worker processes, a results file that is parsed with a pattern, and a dictionary that is changed in place; a model trained with other settings than the validated ones looks like any other.", "anchors": ["python/sol_train.py: train", "python/cv.py: CV.train_val, CV.get_best_param, CV.save_results, CV.load_results", "python/dataset.py: DataSet.split_file", "python/pysol.pyx: SOL.__cinit__, SOL.fit, SOL.save"]}
{"id": "C89", "title": "sol_train.py and sol_train write the same model file", "statement": "python/sol_train.py, called with the name of a class, settings, data, a number of passes and an output file, and sol_train, called for the same, write the same model file; the accuracy that the script logs is that of this training. The order of the settings, the sizes of batches and buffers, what is in the cache directory and the steps of the reading threads make no difference.", "quantifier": "every class, list of settings, data file, number of passes, sizes, command line that asks for the same, interleaving of the threads", "why_tests_cant": "Two front ends in two languages with their own parsers, defaults and life cycle of a model; a file that differs in a default setting looks like any other.", "anchors": ["python/sol_train.py: main, train", "python/pysol.pyx: SOL.__cinit__, SOL.fit, SOL.save, SOL.set_params", "tools/sol_train.cc: main, train, getparser", "src/sol/util/str_util.cc: split"]}
{"id": "C90", "title": "The Python scripts treat a saved model like the executables", "statement": "python/sol_train.py --model goes on training a saved model and writes the file that sol_train -m writes. python/sol_test.py tests a saved model on all points: it reports the accuracy of sol_test, and the file of predictions holds, for every point in order, the label, the prediction and the scores that sol_test writes.", "quantifier": "every model file, data file, sizes, number of passes, output, interleaving of the threads", "why_tests_cant": "All model files of 24 classes and all data files; the scripts read storage of which the owner is gone, which mostly goes unnoticed in a run.", "anchors": ["python/sol_train.py: main, finetune", "python/sol_test.py: main", "python/pysol.pyx: SOL.load, SOL.name, SOL.set_params, SOL.fit, SOL.score, SOL.decision_function, SOL.save", "tools/sol_train.cc: train", "tools/sol_test.cc: test"]}
{"id": "C91", "title": "The Python class treats arrays like files with the same points", "statement": "fit, score, predict and decision_function take numpy arrays and scipy matrices in compressed rows instead of files. A session with arrays has the same outcomes as the session in which each array is replaced by a file with its rows as points, for every order of calls and every mixture of arrays and files; so each call answers for the model that a single training on all examples so far makes. Labels may be left out for predictions.", "quantifier": "every matrix, labels, list of calls, model, sizes of batches and buffers, interleaving of the threads", "why_tests_cant": "Arrays are handed over as addresses in a text that a reading thread parses and follows later; storage that was released in between mostly still holds its old content in a run.", "anchors": ["python/pysol.pyx: SOL.__load_data, SOL.fit, SOL.score, SOL.predict, SOL.decision_function", "src/sol/c_api.cc: sol_loadArray, sol_loadCsrMatrix", "src/sol/pario/data_iter.cc: DataIter::AddReader, DataIter::Next", "src/sol/pario/numpy_reader.cc: NumpyReader::Next", "src/sol/pario/csr_matrix_reader.cc: CsrMatrixReader::Next"]}
{"id": "C92", "title": "A training of a Python object is reported completely and to the right handler", "statement": "The handler that inspect_learning was given last is told, in the training calls that follow, the reports of a single training on all examples of the training calls so far: those that were not told before, each once and in order, the last with the error rate that the call returns. Other calls report nothing. Listening does not change what the calls return or the object. The reports come at the numbers of examples at which the displayer is due and at the end, so logs of trainings on equally many examples have the same numbers of examples and can be averaged row by row.", "quantifier": "every class, program of calls and changes of handlers, data files, displayer, sizes, random numbers, interleaving of the threads", "why_tests_cant": "Counters live on between calls and the calls are split at arbitrary points; a handler that was released mostly still works in a run.", "anchors": ["python/pysol.pyx: inspect_iteration, SOL.inspect_learning, SOL.__cinit__, SOL.fit", "src/sol/c_api.cc: sol_InspectOnlineIteration", "include/sol/model/online_model.h: OnlineModel::set_iterate_callback", "src/sol/model/online_model.cc: OnlineModel::Train, DefaultIterateFunction, ExpIterDisplayer, StepIterDisplayer", "experiments/experiment.py: run_ol, exp_ol"]}
{"id": "C93", "title": "An experiment compares the algorithms on the same orders and shows their averages", "statement": "exp_ol of experiments/experiment.py trains, in every repetition, all algorithms that have no results yet or are to be run again on one and the same random order of the training set, with the settings of the options and those that cross validation has chosen, like sol_train does, and tests them on the test set like sol_test does. Their accuracies and logs are kept in the place of the algorithm and the repetition; the results of the other algorithms stay as they were. The table shows the averages of the accuracies, and the curves the averages of the logs, row by row at equal numbers of examples.", "quantifier": "every data set, list of algorithms with options, kept results, list of names to run again, number of repetitions, random orders and numbers, interleaving of the threads", "why_tests_cant": "Random orders, cached results of earlier experiments and files that are shared by all algorithms; a comparison on different orders or with old settings looks like any other.", "anchors": ["experiments/experiment.py: run_ol, exp_ol", "python/dataset.py: DataSet.rand_path", "python/cv.py: CV.load_results", "python/pysol.pyx: SOL.inspect_learning, SOL.fit, SOL.score"]}
{"id": "C94", "title": "The experiments with Vowpal Wabbit train and test on the data", "statement": "experiments/vw.py translates libsvm data line by line without losing points, features or labels (counted from 1 unless there are two classes). train_test lets vw learn from the shuffled training file in its order, and the accuracies it returns are the shares of the points of the training file and of the test file whose label vw predicts.", "quantifier": "every text of libsvm data, number of classes, files that exist already, settings and behaviour of the program vw", "why_tests_cant": "All texts and all files that earlier runs may have left; a run on an outdated or cut file reports an accuracy like any other.", "anchors": ["experiments/vw.py: convert_to_vw, calc_accuracy, test, train, train_test", "python/dataset.py: DataSet.rand_path, DataSet.convert"]}
{"id": "C95", "title": "Test data for liblinear are given the columns of the training data", "statement": "Whatever the largest feature in the test data, train_test_l2 and train_test_l1 of experiments/liblinear.py score every test point over the features of the training data: features that are missing count as zero and features that are new are left out.", "quantifier": "every weight vector and every test matrix with any number of columns", "why_tests_cant": "Depends on which features happen to occur in the two files.", "anchors": ["experiments/liblinear.py: train_test_l2, train_test_l1"]}
{"id": "C96", "title": "The perceptron with active learning keeps its bound on the expected mistakes", "statement": "If the perceptron asks for the label of an example only with probability b/(b + margin), b being the smoothness, then the mean over the random numbers of the number of its mistakes on any stream of examples of norm at most R is at most (1 + R^2/(2b)) times the hinge losses of any fixed linear function u plus |u|^2 (2b + R^2)^2/(8b), as in the theory of selective sampling; for several classes with the max-score loss the same holds with 2R^2 for R^2 and the max-score hinge loss.", "quantifier": "every stream and length, every linear function to compare with, every smoothness, two or several classes", "why_tests_cant": "A statement about a mean over all sequences of random numbers and about streams of any length.", "anchors": ["src/sol/model/online_linear_model.cc: OnlineLinearModel::Iterate", "src/sol/model/olm/perceptron.cc: Perceptron::Update", "src/sol/model/online_model.cc: OnlineModel::Train"]}
{"id": "C97", "title": "The mistakes of the second order perceptron are bounded by those of any linear function", "statement": "For every stream and every linear function u (with a bias if one is learnt), the number M of updates of the second order perceptron satisfies g M <= L + sqrt(sum_i u_i^2 (a + X_i)) sqrt(sum_i ln(1 + X_i/a)): L are the hinge losses with margin g of u on the examples it learns from and X_i the sum of the squares of feature i in them; for several classes the sums run over all classes and the logarithms count twice. So on examples that u separates, M is bounded by a number that does not depend on the length of the stream.", "quantifier": "every stream and length, every linear function to compare with, every parameter a, margin and learning rate of the bias, two or several classes", "why_tests_cant": "A statement about streams of any length and all linear functions; single runs only show that some errors are made.", "anchors": ["src/sol/model/olm/sop.cc: SOP::TrainPredict, SOP::Update, SOP::update_dim", "src/sol/model/online_linear_model.cc: OnlineLinearModel::Iterate"]}
{"id": "C98", "title": "An update of AROW, CW and ECCW solves the problem of its theory", "statement": "For two classes: the weights after an update of AROW are the best ones, over all weights, for the squared hinge loss on the example plus r times the squared distance from the old weights measured in the variances, and the loss falls by the factor r/(V + r), V being the variance of the score. After an update of CW and ECCW the example is predicted correctly with the confidence asked for: its margin is phi times the new variance of its score for CW and phi times the new standard deviation for ECCW.", "quantifier": "every state with positive variances, every example with label +1 or -1, every alternative weight vector, all parameters r and phi above 0, with and without bias", "why_tests_cant": "Optimality over all weight vectors; an update by a slightly wrong formula still trains models that mostly predict well.", "anchors": ["src/sol/model/olm/arow.cc: AROW::Update", "src/sol/model/olm/cw.cc: CW::BeginTrain, CW::Update", "src/sol/model/olm/eccw.cc: ECCW::BeginTrain, ECCW::Update, ECCW::set_phi"]}
{"id": "C99", "title": "--show lists the classes under the names that create them", "statement": "showinfo lists the classes registered for a group (model, loss, reader or writer), each once, with its name and its description, and no others; the list is the same for every order of registration. A listed name creates the class it is listed for. sol_train --show prints the list and exits with status 0, whatever else is on the command line.", "quantifier": "every list of registered classes in every order, every group, every command line that is understood", "why_tests_cant": "Registrations run before main in an order the language leaves open, and names are cut at separators that tests with the usual names do not contain.", "anchors": ["tools/sol_train.cc: showinfo, getparser", "src/sol/util/reflector.cc: ClassFactory::Register", "include/sol/util/reflector.h: CreateObject", "include/sol/util/str_util.h: split"]}
{"id": "C100", "title": "Training and testing with Python tests the model that was trained", "statement": "train_test of python/sol_train.py trains as train does (with or without cross validation, C88), saves the model if asked to, and returns the accuracy on the test data set of exactly the trained model, the one of sol_train, as sol_test computes it. The model in the file is the one that was tested. The points of the test data set have no part in the choice of settings or in the training, and choosing settings changes no files but those of the folds and of its results.", "quantifier": "every pair of data sets, class, given settings, grid of values, number of folds, passes and processes, order of the dictionary, interleaving of processes and threads", "why_tests_cant": "That a file and the tested model agree, and that files of another data set are left alone, shows only for particular classes and paths.", "anchors": ["python/sol_train.py: train_test, train", "python/dataset.py: DataSet.split_file", "python/pysol.pyx: SOL.score, SOL.save"]}
{"id": "C101", "title": "FOBOS-L1 has the composite regret of the theory", "statement": "With a constant step size eta, the losses of the scores that FOBOS-L1 computes during training, plus lambda times the absolute weights of the models that training would give if it ended before each of the examples, exceed the losses of any linear function u plus lambda times its absolute coefficients per example by at most |u|^2/(2 eta) + eta k R^2 n/2, where n is the number of examples, R bounds their norms and k is 1 for two classes and 2 for several. The postponed truncation of the code therefore pays for lambda as truncating every weight after every example would.", "quantifier": "every stream and length, every linear function to compare with, every eta above 0, lambda, threshold of the final model and learning rate of the bias, hinge and logistic loss for two classes, max-score hinge loss for several", "why_tests_cant": "A statement about streams of any length and all linear functions; single runs only show some losses and some zeros in the model.", "anchors": ["src/sol/model/olm/ogd.cc: FOBOS_L1::TrainPredict, FOBOS_L1::EndTrain, OGD::Update", "src/sol/model/online_linear_model.cc: OnlineLinearModel::Iterate"]}
{"id": "C102", "title": "Enhanced dual averaging with L1 has the composite regret of the theory", "statement": "The losses of the scores that ERDA-L1 computes during training, plus lambda times the absolute weights of the models that training would give if it ended before each of the examples, exceed the losses of any linear function u plus lambda times its absolute coefficients per example by at most sigma sqrt(n) (|u|^2/2 + rou |u|_1) + k R^2 (1 + 2 sqrt(n))/(2 sigma), where n is the number of examples, R bounds their norms and k is 1 for two classes and 2 for several; in the first two terms n is enlarged by the tiny number that the code adds. So the regret per example vanishes as the stream grows.", "quantifier": "every stream and length, every linear function to compare with, every sigma above 0, every lambda and rou, threshold of the final model and learning rate of the bias, hinge and logistic loss for two classes, max-score hinge loss for several", "why_tests_cant": "A statement about streams of any length and all linear functions; single runs only show some losses and some zeros in the model.", "anchors": ["src/sol/model/olm/rda.cc: ERDA_L1::TrainPredict, ERDA_L1::EndTrain, RDA::Update", "src/sol/model/online_linear_model.cc: OnlineLinearModel::Iterate"]}
{"id": "C103", "title": "Dual averaging starts from the zero function", "statement": "A model of RDA, RDA-L1 or ERDA-L1 that has not seen an example gives its first example, whatever it is, the score 0 for every class, in float arithmetic; so it learns from it with the hinge loss.", "quantifier": "every first example with finite values, every number of classes, every positive sigma and 1e-20 with a finite step size, every lambda, rou and learning rate of the bias", "why_tests_cant": "A run over a data set shows an error rate, to which one lost example hardly contributes; and a test looks at some first examples, not at all.", "anchors": ["src/sol/model/olm/rda.cc: RDA::TrainPredict, RDA_L1::TrainPredict, ERDA_L1::TrainPredict", "src/sol/model/online_linear_model.cc: OnlineLinearModel::Iterate", "src/sol/loss/hinge_loss.cc"]}
{"id": "C104", "title": "The reported sparsity is the share of zero weights", "statement": "For every linear model the number that model_sparsity returns, and that sol_train prints and the Python class offers, lies between 0 and 1 and is the share of the weights without the biases that are 0, up to 2^-23; it is exactly 1 when all weights are 0 and exactly 0 when none is.", "quantifier": "every list of weight vectors in binary32, including NaN and infinite weights, every number of classes and every dimension", "why_tests_cant": "The number is a quotient of two counts with an unsigned product, a double division and a float difference; a test sees it for a few models, and models with billions of weights are out of its reach.", "anchors": ["src/sol/model/online_linear_model.cc: OnlineLinearModel::model_sparsity", "src/sol/c_api.cc: sol_model_sparsity", "tools/sol_train.cc", "python/pysol.pyx: sparsity"]}
{"id": "C105", "title": "A repeated experiment uses the value that the cross validation found", "statement": "The experiments with liblinear and vw write the best value of a cross validation to a file, and a later run that finds the file uses exactly the value of the first run, whatever a search would find then; a run that shall search again uses and writes the new value.", "quantifier": "every value that is a double and not negative, every later run, every content of an earlier file when the search is repeated", "why_tests_cant": "The value goes through decimal text with six digits; whether it comes back the same depends on its digits, and the values tried in the supplied settings do come back.", "anchors": ["experiments/liblinear.py: train_test_l2", "experiments/vw.py: train"]}
{"id": "C106", "title": "A figure shows every point within its limits and lines that can be told apart", "statement": "plot draws one line for each pair of coordinate lists, made of exactly the points whose x lies within the limits, in their order, each with its own y. Two lines have the same colour and marker only if their numbers differ by a multiple of 72. An earlier line lies above each later one, and the legend, in its default order, above all.", "quantifier": "every number of lines and points, every limits, coordinate lists with at least as many y as x", "why_tests_cant": "A test looks at a few figures with few lines; that colours and markers repeat only together after 72 lines is a statement about all pairs of lines.", "anchors": ["experiments/fig.py: plot"]}
{"id": "C107", "title": "The command line tool releases what it makes and uses only what exists", "statement": "In every run of train and test of lsol_c the model and the data iterator are used and released only while they exist, and everything that was made has been released, once, when the function returns.", "quantifier": "every command line and every result of the calls of the C interface, any number of settings in --params", "why_tests_cant": "Leaks and uses of null pointers hide on the paths of errors: a test has to meet the right one of all combinations of missing files, refused settings and malformed texts, and a leak does not change the output.", "anchors": ["tools/lsol_c.cc: train, test", "src/sol/c_api.cc: sol_ReleaseModel, sol_ReleaseDataIter", "include/sol/util/util.h: DeletePointer"]}
