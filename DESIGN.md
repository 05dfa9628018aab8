# A formal model of LIBOL/SOL in Lean 4

## Layout

    lean/Verif/Base/       numbers, outcomes (ok / error / undefined behaviour), small list facts
    lean/Verif/Model/      the model, one file per source unit, every definition cites /repo file:lines
    lean/Verif/Spec/       small specifications written without the model's helpers
    lean/Verif/Proofs/     lemmas
    lean/Verif/Props/      the property theorems and, beside each, a concrete non-trivial instance
    properties.jsonl       the properties (C01, C02, ...)
    MANIFEST.json          property -> theorems
    seeded/LOG.jsonl       wrong programs tried against the theorems

## Conventions of the model

* C++ undefined behaviour (out-of-bounds access, null dereference, signed overflow, over-wide shift)
  is a distinct outcome of the model, never a default value.
* `uint32_t`, `uint64_t`, `int32_t` values are modelled as bit-exact machine integers
  (or as naturals together with explicit wrap-around) whenever the width matters.
* `float`: two levels.
  - Control-flow facts (which coordinate is touched, who is in the heap, counters, dimensions) are proved
    for an arbitrary number type with arbitrary operations and comparisons and no laws at all,
    so they hold for IEEE floats including NaN.
  - Numerical facts (margins, bounds, convexity) are proved over exact reals or an ordered field: rounding is
    not modelled. Facts about infinities and NaN use a number type with the IEEE special values.
* Threads: interleaving semantics with one atomic step per critical section (mutex-protected region between
  two blocking points); condition variables with spurious wake-ups.
* Files: a file is a list of bytes; `fread`, `fgets`, `fwrite`, `rewind`, `feof` are modelled by their standard
  meaning; device errors are not modelled except where stated.

## Trusted base

* Lean 4.33.0's kernel, and the axioms `propext`, `Classical.choice`, `Quot.sound` (checked with `#print axioms`).
  No axioms are added; no `sorry`, `native_decide`, `bv_decide`.
* The reading of the C++ source by the author: the correspondence model <-> code is by inspection
  (comments with file and line numbers), it is not machine checked.
* The C/C++ standard library (`fgets`, `fread`, `std::shuffle`, `sprintf`, iostreams) is modelled by its
  documented behaviour.

## Plan per property

| Id | Modelled | Proof |
|----|----------|-------|
| C01 | `compress.h` on machine words, byte lists | decode after encode by induction on the list; per-value lemma on 7-bit groups |
| C02 | writer and reader as byte-list functions, `FileReader::Read` | parse of serialise by induction on records |
| C03 | same reader on prefixes of the file | case analysis on the cut position; the cut inside the length field violates it (negation proved) |
| C04 | decoder with explicit out-of-bounds / shift outcomes | characterise exactly the safe codes; negation by witness |
| C05 | `numeric_parser.h` on zero-terminated buffers, read outside = UB outcome | induction on the remaining line |
| C06 | same, with signed overflow outcome | digit-list induction |
| C07 | `ParseFloat` over exact rationals | digit-list induction |
| C08 | `SVMWriter` text, `SVMReader::Next` | round trip by induction on features |
| C09 | `SVMReader::Next` against a line grammar specification | loop invariant |
| C10 | `CSVWriter`, `CSVReader` | round trip by induction on columns; index 0 violates it |
| C11 | `fgets` + doubling loop | invariant of the loop |
| C12 | array quicksort with the hole partition, out-of-bounds outcome | loop invariants, permutation + sortedness |
| C13 | storage with capacity and stale tail | simulation to lists |
| C14 | heap of reference-counted blocks | invariant count = number of handles |
| C15 | same heap with contents | frame argument |
| C16, C17 | dense/sparse evaluation with trimming loop | induction on features |
| C18 | `truncate` | ordered-field case split |
| C19 | array heap with position tables | permutation invariant + heap order |
| C20-C22 | monitor with mutex, two condition variables, n threads | inductive invariant over the step relation |
| C23-C25 | reader thread and caller over two bounded queues | inductive invariant (data in flight = remaining file), measure for termination, witness for the destructor |
| C26-C28 | loss functions | algebra over the reals; uniform hinge violates C26 |
| C29-C31 | training loop with abstract and with concrete algorithms | induction on the stream |
| C32 | perceptron | Novikoff's argument |
| C33 | PA, PA-I, PA-II | algebra |
| C34 | PA on numbers with infinities | witness of violation |
| C35 | FOBOS-L1 lazy vs eager | simulation relation per coordinate |
| C36 | STG | witness of violation, theorem for class 0 / binary |
| C37 | PET, FOFS, SOFS, Ada*-OFS | invariant: non-zero weights are in the heap |
| C38-C40 | AROW, CW, ECCW, SOFS, AdaFOBOS, AdaRDA, ALMA2, FOFS | invariants |
| C41 | RDA | simulation by dual averaging from the list of updates |
| C42 | all algorithms, sessions of `Train` and `Test` | simulation relations that ignore the weights, witnesses |
| C43-C45 | pre-processing | algebra, case analysis |
| C46-C48 | parameter table, save/load at token level and as text, the line loop of `Load` | round trip, non-termination witness |
| C59 | command line parser | a grammar of command lines as an inductive relation; the parser accepts exactly it; invariant: the state after the arguments so far |
| C60 | `sol_train`, `sol_test` | what the command line asks for, stated over the options given; exactly those jobs are run |
| C61 | `Train`, `Test` | the result over any finished run of the iterator (C23) is the result over one batch with all examples |
| C62 | reports of `Train`, lines of `Test` | the powers of the base or multiples of the step, each with the counts of the trace so far; one line per example |
| C63 | OGD over a whole run | squared distance to any fixed linear function falls by the regret of each example; losses written down in Spec/Regret |
| C64 | PA, PA-I, PA-II over a whole run | the same distance argument with the steps of the three algorithms |
| C68 | AdaFOBOS over a whole run | as C63, with one potential per weight, whose growth telescopes |
| C69 | AdaRDA over a whole run | potential per weight of the dual sums |
| C70 | RDA over a whole run | potential of the dual sums divided by the count; the weights are those of `EndTrain` |
| C71 | ALMA2 over a whole run | inner product with a separating function grows like the root of the number of updates, while the projection keeps the norm at most 1 |
| C72 | `ParseFloat` with its three roundings, for every accurate `powf` | bounds of rounding, exact decimals of C07 |
| C73 | files as bytes, `float` values and their memory images, the three formats | `ofBits (toBits v) = v`, lines of C08 and C10 with the bounds of C72, written text is ASCII and lines are short enough |
| C74 | the tools on files, given what the file system answers | C73 for the output, C49 and C50 for the points handed to the writer; a threshold gives whole numbers, which text keeps |
| C75 | the data tools as programs | C59 for the command line, C74 for the files; counts of C51 for the report |
| C76 | `sol_train` and `sol_test` from the command line to the bytes written, with the reading thread | every run has the same end, by C23 and C61; it depends on the points read only |
| C77 | `converter` and then `sol_train`; several passes | C73 and C75 for the points of the converted file, then C76 |
| C78 | `sol_train` for all 24 classes, new and loaded models | C54 for training, C46 for the file, C60 for the command line; Spec/Named is a table from the reported class and settings to the algorithm |
| C79 | `sol_test` and its file | rows of C62, the text is ASCII |
| C80 | `sol_train` with a budget | C37 for training, zero is printed and read as zero |
| C81 | feature selection | invariant of the heap: no feature outside is better than one inside, since features only get better (variances shrink, scales and sums grow); simulation by the algorithm without selection |
| C82 | evaluation of vector expressions | structural induction on expressions; the element at `i` depends on elements at `i` only, so overwriting others does not matter; then each statement of the algorithms against the models |
| C83 | cross validation with processes and queues | mixed radix numbers for the grid; invariant and decreasing measure of the transition system of processes; induction over folds |
| C84 | data sets with a cache directory | the paths of different copies differ; invariant over sequences of calls: whatever file exists belongs to the data set; the pattern finds the numbers of the report |
| C85 | objects of the Python class | no class reads `model_updated_`, so going on is going on with one loop over all examples; the iterator hands out what waits in it; induction over the calls with the object open or at rest |
| C86 | cross validation on files | a library that follows the calls makes a session of C85 that is trained in one go; C83 for the choice, C84 for the folds |
| C87 | order of parameters | every accepted parameter is one of 32 kinds of assignments, the same whatever the other settings are; two of them with different places commute |
| C88 | `train` of sol_train.py | the text of the results has one match of the pattern; C86 for the choice, C87 for the order of the dictionary, C85 for the training |
| C89 | sol_train.py and `sol_train` | C60 for the command line, C84 for the data set, C87 for the order of settings, C85 and C88 for the training |
| C90 | sol_train.py and sol_test.py with a saved model | a session of C85 with one call; C60 for the command line |
| C91 | arrays in Python sessions | C53 for the points, so a call with a matrix is a call with a file; C73 gives a binary file for every matrix, and then C85 |
| C92 | reports to Python handlers | C85 with the reports kept along: going on with a training adds the reports of one training on all examples; no class touches the number of examples (Proofs/Tally), which gives the numbers in the log |
| C93 | experiments with several algorithms | C92 for each training and test; the loops keep what belongs to other algorithms and repetitions; `rand_path(force=True)` writes one order that all `rand_path()` of the repetition find; equal numbers in the logs (C92) make the curves averages |
| C94 | experiments with Vowpal Wabbit | lines of libsvm text, `int` and the translation line by line; `train_test` on files that are not yet translated: the program as a parameter learns from the shuffled rows, and the accuracies are shares of right predictions; counterexamples decided by the kernel |
| C95 | columns of test data for liblinear | padding with zeros and cutting change no sum of products over the features of training; the wrong width of the padding in `train_test_l2` |
| C96 | expected mistakes with active learning | the mean as an iterated integral over the random numbers; a random number counts only in comparison with the chance to ask; a potential falls by 2(b + margin) with chance b/(b + margin) on a mistake |
| C97 | mistakes of the second order perceptron | a potential, the squares of `v` divided by `a + X`, grows by at most the logarithm of the growth of `a + X` on an update; Cauchy-Schwarz with the weights `a + X`; the example without bound by the sign of one weight |
| C98 | updates of AROW, CW and ECCW | the new weights and variances coordinate by coordinate; AROW's minimum by Cauchy-Schwarz with the variances; the step sizes of CW and ECCW are the roots of the quadratic equations of their theories; the new variance of the score compared term by term |
| C99 | the list of classes of `--show` | sorting is a permutation with one result; the key of a class splits into the parts of its name and its kind; the lookup of C52 |
| C100 | `train_test` of sol_train.py | a session of C85 with the test at the end; C88 for the choice of settings; splitting writes only the files of folds |
| C101 | FOBOS-L1 over a whole run | C35's relation to the eager algorithm; one of its examples is one of OGD (C63) and a proximal step, and the sum of the absolute weights telescopes |
| C102 | ERDA-L1 over a whole run | conjugate of the regulariser as potential, one soft threshold per coordinate; the first example is compared with the potential of the second step size, since the first is almost 0 |
| C103 | first example of RDA, RDA-L1 and ERDA-L1 in binary32 | weights from blank sums; infinity times 0 is NaN, and the larger of 0 and NaN is 0 in the hinge loss |
| C104 | `model_sparsity` in binary32 and binary64 | counting zeros, and the rounding of a number between 0 and 1 |
| C105 | file with the best value of a cross validation in experiments/liblinear.py and vw.py | decimal text of millionths read back, and the error of binary64 rounding |
| C106 | points and styles of the lines of a figure | induction over the points and over the lines; 8 colours and 9 markers have no common factor |
| C107 | model and data iterator in `lsol_c` | acts as an inductive relation over the objects that exist; cases of the returned statuses, induction over the settings |
| C65 | C interface and Python class: list and set parameters | the list is a set of (name, text) that the model reports; setting any ordering of it on a new model |
| C66 | `lsol_c` | as C60 |
| C67 | `sol_Predict`, `SOL.score` | equal to what `Test` gives |
| C57, C58 | JSON reader and writer on characters | grammar of JSON text as inductive relations; the writer produces it, the reader reads it; the reader's rest shrinks |
| C56 | `SetParameter` against `GetModelInfo` | one relation per accepted call, frame lemma |
| C49-C51 | tools | list facts; single-precision rounding of the fold size |
| C52, C53 | string helpers, class registry, in-memory matrices | the pieces of a string as an inductive relation; matrices laid out in a byte-addressed memory |

## Which code is modelled

| Model file | Source | Left out / simplified |
|------------|--------|-----------------------|
| Model/Compress | include/sol/pario/compress.h | - |
| Model/BinaryIO | src/sol/pario/binary_reader.cc, binary_writer.cc, `FileReader::Read` | device errors; float payloads are opaque 32-bit words |
| Model/Sort | include/sol/util/sort / quick sort used by `SVector::Sort` | `HeapSort` (never instantiated, names members that do not exist) |
| Model/NumericParser | include/sol/pario/numeric_parser.h | rounding to float (exact rationals; see Model/FloatValue) |
| Model/FloatValue | numeric_parser.h:144-148, the `float` that `ParseFloat` returns | `powf` is any function accurate to 2^-40 before rounding |
| Model/DataFile | creation and opening of readers and writers, the formats with `float` values, tools.cc and the main programs in tools/ from the command line to the files | sign of zero and payload of NaN; readers of arrays in memory; console output; failing writes; the text of `%.2lf` is a parameter |
| Model/ReadLine | src/sol/pario/file_reader.cc `ReadLine` | - |
| Model/TextReaders, TextWriters | svm_reader.cc, csv_reader.cc, svm_writer.cc, csv_writer.cc | number formatting by the C library is its documented decimal form |
| Model/Vector, Handle, DataPoint | include/sol/math/vector.h, shared storage, include/sol/pario/data_point.h | allocation failure |
| Model/Sparse | sparse vectors against dense vectors, truncation | expression templates are evaluated functions (justified by C82) |
| Model/Expr, Model/Statements | include/sol/math/expression.h, matrix_expression.h, matrix.h (shapes, assignment, elements), vector.h `slice`; the statements on vectors in src/sol/model/olm/*.cc | sizes do not overflow; sparse vectors share no storage with dense ones; what does not compile in C++ cannot be written |
| Model/Heap | include/sol/util/heap.h | wrap-around of 2*i+1 (fewer than 2^31 places) |
| Model/BlockQueue | include/sol/util/block_queue.h | timing |
| Model/DataIter | src/sol/pario/data_iter.cc, data_read_task.cc, include/sol/util/thread_task.h | the queues are atomic here (justified by C20-C22); memory release |
| Model/Loss | src/sol/loss/*.cc, include/sol/loss/loss.h: Sign | label -2^31; labels of the multi-class losses are indexes |
| Model/Online | src/sol/model/online_model.cc, online_linear_model.cc (Iterate, TrainPredict, Predict, update_dim), `Model::Test` | logging, time measurement, pre-processing of examples; the random number of active learning is an input |
| Model/Sparsity | `OnlineLinearModel::model_sparsity` (online_linear_model.cc:140-150), the number after `EndTrain` | count of weights below 2^53 |
| Model/Olm | src/sol/model/olm/{perceptron,ogd,pa,alma2,arow,cw,eccw,rda,sop,ada_fobos,ada_rda}.cc, regularizer.cc | parameters read from text; `pow(t, p)` is an arbitrary function of t; feature selection is in Model/Select |
| Model/Select | src/sol/model/olm/{ogd (PET),fofs,arow (SOFS),ada_fobos,ada_rda (OFS)}.cc | budget 0 (the base algorithm); the exception of `set_N` when the dimension shrinks (it never does) |
| Model/Text | `std::stoi`, `std::stoll` and `std::getline` | locale: blanks and digits are those of the C locale |
| Model/PreProcess | src/sol/model/model.cc `PreProcess`, `CalibrateLabel`, `LoadPreSelFeatures`, `FilterFeatures` | overflow of the flags' allocation; negative indexes in the list become huge (modelled as their value modulo 2^32) |
| Model/Tools | src/sol/tools.cc, tools/concat.cc | file names, console output, memory release; the sparsity percentage of `analyze`; `std::shuffle` is the exchange loop of libstdc++ with arbitrary random numbers |
| Model/StrUtil | include/sol/util/str_util.h, src/sol/util/reflector.cc, `CreateObject` in reflector.h, all registrations | `char` signed; calling the creation function found |
| Model/Arrays | src/sol/pario/numpy_reader.cc, csr_matrix_reader.cc | memory holds typed cells (no aliasing of `int` and `double`); `double` values as rationals; the Python side (float64, int32 arrays) is not modelled |
| Model/FloatText | text of `float` values: `operator<<`, `%g`, `std::stof`, `operator>>` | hexadecimal text |
| Model/Params | `SetParameter` of model.cc, online_model.cc, online_linear_model.cc, regularizer.cc and all algorithms; construction of the 24 models | the pre-selected features of `filter` (only whether the file loads); iteration display is a number |
| Model/Save | `Model::Save`, `Model::Load`, `GetModelInfo`, `SetModelInfo`, `GetModelParam`, `SetModelParam` of all classes | here a file is the tree of settings (its text is in Model/LoadText).  A number too large for a `float` reads as 0 |
| Model/Json, Base/F64 | external/json/jsoncpp.cpp: `Reader`, `StyledStreamWriter`, `asString`, `asInt`, `get` | comments kept with values, error messages, limits on memory, writing arrays; `double` is an exact number rounded when read |
| Model/LoadText | `Model::Save`, `Model::Load`, `SetModelInfo` on the text of the file | as Model/Save |
| Model/Cmdline | external/cmdline/cmdline.h: `parser::add`, `parse`, `exist`, `get` | without descriptions, groups, usage; `parse` of one string is not used and not modelled |
| Model/Cli | tools/sol_train.cc, tools/sol_test.cc; option tables of all tools | the operating system (files that can be opened or written) and `Model::Load` are given; printing is left out |
| Model/Show | tools/sol_train.cc: `showinfo` and its use in `getparser` | the registry of Model/StrUtil; the order of `std::map` is that of the codes of the characters; `showinfo` of lsol_c.cc is the same |
| Model/Train | online_model.cc:24-51, 132-192 (displayers, loop of `Train` with pre-processing and call-backs); model.cc:117-151 (`Test` with its output lines) | `size_t(pow(base, n))` is the power; counters do not overflow; random numbers are a given sequence |
| Model/Whole | `Train` of every class as `sol_train` calls it (parameters, `BeginTrain`, loop, `EndTrain`), sol_train.cc and sol_test.cc from the command line to the files written, with the data iterator | that of the parts; console output; the start time of the lazy regularizers is a whole number; the data file does not change between passes and is not the file of predictions |
| Model/CApi | src/sol/c_api.cc, tools/lsol_c.cc; python/pysol.pyx: `set_params`, `get_params`, `score`, `predict` | handles are the objects themselves; a callback is the list of its calls; calls that only pass arguments on, `sol_model_sparsity` and Python's own rules for dictionaries are left out |
| Model/Cv | python/cv.py: `SearchSpace`, `train_val_executor`, `CV` (saving and loading results: Model/SolTrain) | Python 2; accuracies are exact numbers; what pysol does (create, fit, score) is a parameter (C67 is about scores); queues are atomic, the task queue is in order, the results arrive in any order; the order of a dictionary is given |
| Model/DataSet | python/dataset.py: `DataSet` | Python 2; directories are not modelled, whether a path can be written is given; files can be removed and read; the path `-` is an ordinary file; numbers of folds are not negative; log messages are left out, but for the one that raises an exception; no other process uses the directory |
| Model/PySol | python/pysol.pyx: `fit`, `score`, `predict`, `sparsity`, `save` on one object | data in files (arrays: Model/PyArrays); `set_params` and `load` before the first training; accuracies are given as error rates; undefined behaviour of a reader is attributed to the call that adds the file; `predict` stands for `decision_function` also |
| Model/PyArrays | python/pysol.pyx: `__load_data` and the calls of Model/PySol with arrays of numpy and matrices of scipy; src/sol/c_api.cc: `sol_loadArray`, `sol_loadCsrMatrix` | as Model/PySol and Model/Arrays; arrays of `float64` in C order with labels in one piece (what Cython's casts do with other layouts is not modelled); the memory is that after `__load_data` has returned and does not change until the data are read |
| Model/Observe | python/pysol.pyx: `inspect_iteration`, `inspect_learning`, the callback of a new object; src/sol/c_api.cc: `sol_InspectOnlineIteration`; include/sol/model/online_model.h: `set_iterate_callback` | as Model/PySol; `inspect_learning` after `load` only; a handler does nothing to the object it listens to, and what it raises is ignored by Cython; the text that `DefaultIterateFunction` prints is not modelled |
| Model/Experiment | experiments/experiment.py: `run_ol`, `exp_ol` | as Model/SolTrain and Model/Observe; without `liblinear` and `vw`, which are other programs (Model/Vw); names are ASCII; `cPickle` reads back what it wrote; the options of different algorithms are different objects; averages are exact and a rate that is not a number counts as 0; standard deviations, times, printing and drawing are left out |
| Model/Vw | experiments/vw.py: `convert_to_vw`, `calc_accuracy`, `test`, `train`, `train_test`; experiments/liblinear.py: the columns of the test data in `train_test_l2`, `train_test_l1` | Python 2; ASCII text whose lines end with `\n`; the program `vw` is a pair of functions (learning, predicting) that may fail; without cross validation (of another package), the readable model and times; of liblinear only that a matrix needs the columns of training and scores are sums of products |
| Model/Remember | experiments/liblinear.py:42-61 and experiments/vw.py:148-173: the file with the best value | the search is given by its result, a `double` that is not negative; texts of numbers too large for a `double` are taken for exceptions; `float` only of digits, a point and digits |
| Model/Fig | experiments/fig.py: `plot` (34-78), the points, colours, markers and order of the lines | exact coordinates; drawing, axes, legend and file are those of another package |
| Model/Handles | tools/lsol_c.cc: `train`, `test`, only what they do with the model and the iterator | results of the calls are given; no exceptions |
| Model/PyCv | python/cv.py: `train_val_executor` with the objects of Model/PySol | as Model/Cv and Model/PySol; values have a `str` and a conversion to `int`; sizes that are not positive are taken for an exception; an accuracy that is not a number is taken for 0, and undefined behaviour of a worker for an exception |
| Model/SolTrain | python/sol_train.py: `train`; python/cv.py: `save_results`, `load_results` | as Model/PyCv and Model/DataSet; `str` of dictionaries, `%.4f` and `ast.literal_eval` are parameters; a model is made of a dictionary in any order, which is otherwise that of insertion; no value is `None`; time, logging and `os.makedirs` are left out |
| Model/TrainTest | python/sol_train.py: `train_test` | as Model/SolTrain and Model/PySol; time and logging are left out |
| Model/PyMain | python/sol_train.py: `main`, `finetune`; python/sol_test.py | as Model/SolTrain; `argparse` is not modelled; values other than truth values, whole numbers and texts are known by their text; an exception ends the script; `%f` and `str` of scores are parameters; the file of predictions is not one that is read |
| Model/LoadLoop | the line loop of `Model::Load` | - |
| Base/F32, Base/F32Sqrt | IEEE binary32 arithmetic and square root (round to nearest even) | signed zeros, exception flags |

Everything not in the table is not modelled (yet): the rest of the python bindings.

## Findings

Statements of properties.jsonl that the code does not satisfy; each has a theorem `..._is_violated` with a concrete
execution, and `..._partial` theorems for what does hold.

* C03: a binary file cut inside the code length is read as the end of the file (binary_reader.cc:35).
* C04: the decoder reads past the end of malformed codes and shifts too far (compress.h).
* C06: parsing the largest label magnitudes overflows a signed integer.
* C08, C10: indexes from 2^31, non-finite values, CSV index 0 and unsorted CSV features are not preserved.
* C09: features without digits are accepted.
* C11: the line buffer size overflows after many passes over a file whose last line has no newline.
* C15: `DataPoint::Clone` of a default-constructed point dereferences a null pointer.
* C20, C21: the forced bulk `Dequeue` waits outside a loop and removes elements that are not there.
* C22: a bulk `Dequeue` of zero elements swallows a wake-up.
* C25: the destructor of `DataIter` tests the queue's size and dequeues in two steps; a reading thread can take the last
  batch in between, and both threads wait for ever (data_iter.cc:31-32).
* C26: the uniform hinge loss reports loss 0 with every gradient (shadowed variable, hinge_loss.cc:140, :148), so a
  model trained with it never updates; the uniform logistic loss is NaN (0/0) when the true class is strictly ahead.
* C27: the cut-offs of the logistic loss break convexity by at most exp(-100).
* C29: training on an empty data set reports the error rate 0/0 = NaN.
* C30: FOBOS-L1 truncates the weights of an example before active learning passes it over, and again each time.
* C33: with three or more classes PA reaches the margin against one rival only; another class can keep the loss positive.
* C34: an example without features makes PA's step size infinite and the bias NaN, even when the bias is not learnt.
* C35: `EndTrain` of FOBOS-L1 shrinks the bias twice (ogd.cc:162-165).
* C36: STG truncates the features of the first class only; the shared time stamps say "done" to all other classes.
* C38: the parameter `r` of AROW is not checked, a negative one makes the variances grow; ECCW's margin is `phi * v` where
  the algorithm has `phi * sqrt v` (eccw.cc:81), so that with default parameters seeing an example of norm 2 again raises
  the variance and moves the weight away from the label; with rounding, CW divides zero by zero when `v` underflows.
* C42: `EndTrain` of FOBOS-L1, STG and AdaFOBOS-L1 truncates without touching the time stamps, so an evaluation between two
  training calls truncates twice; `EndTrain` of SOP and AdaRDA sets the bias, which training otherwise leaves at 0;
  `EndTrain` of AdaRDA-OFS with several classes brings back weights that the selection had removed.
* C44: a feature list without any index dereferences the end of an empty vector (model.cc:356); with normalisation, an
  example whose listed features are all 0 is divided by 0, so its unlisted features turn the scores into NaN.
* C46: weights are printed with six digits, so scores that cancel up to the seventh digit change; an infinite weight is read as 0 and
  ends the line, so that the weights behind it are 0 too; an infinite setting makes the file unreadable; a setting just above the
  smallest normal number is printed as one below it and `std::stof` throws; FOFS without `B` (or with a negative one) and models after
  a rejected call of `SetParameter` are saved but not loaded again; `active_smoothness` below 1 is not saved.
* C47: a model file that ends before the line "model parameters:" keeps `Load` in its loop for ever (model.cc:195-198).
* C59: a lone `-` on the command line is dropped, neither a word nor an error.  `-f -h` takes `-h` as the value of `-f`.  `concat`
  and `split` require `--output_type` although it looks optional.
* C60: `sol_train` ends with status 0 although the model could not be saved (the status of `Save` is ignored), likewise `sol_test`
  with its predictions.  `--dim` is accepted and never used.  Values in `--params` are cut at the first blank, `a==b` is `a=b`.
  `--bufsize 0` and `--batchsize 0` wait for ever; a value out of range (`eta=1e99`) or a negative size ends in `std::terminate`.
* C62: `exp_show` or `step_show` set on a trained model reports after every example until the displayer has caught up; the
  counters are not reset when training starts anew.
* C57, C58: the reader copies `capacity()` bytes of the settings, more than there are, and reads on behind the 0 byte in error
  recovery (jsoncpp.cpp, `parse`); "-" is read as 0, any token is taken for a comma after a comment, what follows the value
  is ignored, `{"":1,}` is accepted, numbers beyond the range of `double` are refused (so the writer's `1e+9999` for an
  infinity is), nesting deeper than 1000 throws.  Exceptions of the JSON library leave `Model::Load`.
* C56: a smaller `dim` is accepted and ignored; `B=-1` of FOFS is stored as 4294967295; text after a number is ignored; any
  `lazy_update` other than "true" means false; `active_smoothness` below 1 is accepted but not reported.
* C48: `bias_eta`, `loss`, `norm`, `exp_show` and some parameters of the algorithms are stored before they are checked; the rejected
  value stays in the model.
* C49: the fold size is computed in single precision; 2^24 + 1 points in one fold lose the last point.
* C50, C51: the dimension of a point is its last index plus 1.  Binary files may hold unsorted points; `convert` to csv then
  loses their features and `analyze` writes outside its array.  Without any feature `analyze` reports dimension 2^64 - 1.
* C52: `lower` passes a plain `char` to `tolower`; bytes above 127 are negative there, which is undefined behaviour.
* C53: `x_idx_ * stride_` is an `int` product, so a dense array of 2 GiB or more overflows; the sparse reader delivers stored zeros
  as features.  A matrix without rows is reported as a read error.
* C55: `BeginTrain` of SOFS, AdaFOBOS-OFS and AdaRDA-OFS puts the first B features into the heap, whatever the loaded
  weights are; other features keep their weights and the budget is exceeded.
* C65: `sparse_thresh`, `step_show`, `exp_show` and `filter` can be set but are not listed, so a copy made from `get_params` loses
  them.  A new FOFS lists `B` as 0 and refuses 0.  `eta=inf` is accepted and listed as 1e+9999, which throws when set.
* C66: `lsol_c --filter` with a model that cannot be loaded sets the filter in a null pointer (lsol_c.cc, `test`); `stof` and `stoi`
  throw through the C interface; `sol_Test` does not report that the predictions could not be written.
* C67: c_api.h documents that `sol_Train` and `sol_Test` return the accuracy, and `lsol_c` prints it so; it is the error rate.
* C69: while it trains, AdaRDA multiplies the bias by `bias_eta` and never sets it from the sums (ada_rda.cc:64-72), so it learns
  without bias; only `EndTrain` computes one.  Training on after `EndTrain` shrinks that bias at each update.
* C72: `0e39` is read as NaN; tiny values come back 0.5 percent off, because the power of ten is a subnormal `float`.
* C73: text keeps six digits of a value, so data sets that differ later give the same file; 1/1024 is written as 0.000976562, read as 0.0009765 and then written so.
* C74: an input with a bad line is converted up to that line with status 0; csv from the standard input has only a header; type `CSV` uses an uninitialised dimension; splitting an empty file writes nothing with status 0; zero folds is undefined; `concat` empties its output before it finds an input missing.
* C75: `analyze` divides by one column more than there are, so one column, used by every point, is reported as 50 % sparse; without features the dimension is reported as 2^64 - 1.
* C78: a model of FOBOS-L1 or AdaFOBOS-L1 that was loaded and is trained on data without its last features throws in `EndTrain`,
  so the result is lost (the time stamps are not in the file and have size 1, ogd.cc:158-167, ada_fobos.cc:115-125); a negative
  `B` of PET, SOFS, AdaFOBOS-OFS, AdaRDA-OFS is converted to `index_t`, which is undefined (ogd.cc:186); cost sensitive learning with
  a loss that is not a hinge loss saves a model that has not been trained, with status 0 (online_model.cc:132-142).
* C80: SOFS with `B=1`, saved, loaded and trained further has two features (C55 with files).
* C81: FOFS shrinks all weights but recomputes `abs_weights_` only for the features of the example (fofs.cc:62-79), so its selection
  compares old magnitudes with new ones: with `eta=1`, `lambda=0.5`, `B=1` it keeps the weight 1/2 and deletes the weight 3/4.
* C82: a vector of size 0 in an expression passes the check of shapes like a number and is read out of bounds
  (matrix_expression.h:108, expression.h:143-144); beside a sparse vector only the size of the destination is looked at
  (matrix_expression.h:159); `Matrix(const Exp&)` throws unless the expression is empty (matrix.h:37-42); `operator()(x, y) const`
  ignores `y` (matrix.h:170-172).
* C83: an exception in a worker process (a refused parameter, a missing fold) or `-p 0` leaves the main process waiting for ever
  (cv.py:176-177); a second call of `train_val` on the same object adds the old average to the sum (cv.py:138-139), which
  `get_best_param` then ranks by; other parameters take precedence over searched ones of the same name (cv.py:163).
* C84: `split_file(n)` without a type looks for files that end in `None` (dataset.py:135, 138): it always splits again and leaves the
  folds beyond `n` of an earlier split, which a later `split_file(m, type)` takes for its own, so points are in two folds or in none;
  `binarize` with another threshold returns the old file; a file of the same name gets the report and the copies of another;
  `cache_path` raises `TypeError` when nothing is cached (dataset.py:86: two values for one `%s`).
* C85: `save` does not call `EndTrain` (model.cc:160-177), and python/sol_train.py:86-94 saves right after `fit`: for the classes with a
  lazy regularizer and those of dual averaging the file has weights that are not up to date, unlike that of `sol_train`, which asks for
  the sparsity first (sol_train.cc:93); `score` between two calls of `fit` changes what FOBOS-L1 learns; `Train` returns 0 when
  `BeginTrain` refuses (online_model.cc:133-142), so `fit` reports accuracy 1, and the points it added are counted by the next `score`.
* C86: the folds are drawn at random (C84), so a small data set may have a fold without points; `score` then returns `1 - 0/0`, and
  `np.argmax` takes an average that is not a number for the greatest.
* C87: where `B` is the weight of the regularizer (PET, SOFS, AdaFOBOS-OFS, AdaRDA-OFS) the last of `B` and `lambda` counts; `t` replaces the
  time `t0` of the lazy regularizer (online_model.cc:89), and a display the one before.  In Python the order is that of a hash table.
* C88: given settings override searched ones in cross validation (cv.py:163) but not in the training (sol_train.py:78), so a setting that is both
  given and searched is never varied, and the value used was not validated; `B` and `lambda`, if given, are taken away during cross
  validation, also if they are not searched (sol_train.py:59-64); `cv-<model>.txt` is used again whatever values are searched
  (sol_train.py:53-54).
* C89: `main` always passes `norm` (sol_train.py:179-182), which ALMA2 refuses unless it is L2, so `sol_train.py -a alma2` fails, while
  `sol_train -a alma2` works; of `k=v=w` the script takes `k=v` (sol_train.py:187-188), `sol_train` refuses it; `--params` is ignored with
  `--model` (sol_train.py:202-204).
* C90: `load` sets `algo`, a `const char*`, to the buffer of a string in a dictionary that is gone when `load` returns (pysol.pyx:48,
  323-324); both scripts read it through `m.name` (pysol.pyx:100, sol_train.py:158, sol_test.py:104).  Fine-tuning sets the normalisation
  of the loaded model to the default of the script.
* C91: without labels `__load_data` makes an array of zeros (pysol.pyx:163-164), passes its address on and returns; nobody holds the array
  when the reader starts (data_iter.cc:91), so `predict(X)` and `decision_function(X)` read labels from released storage.  Likewise a
  reader that a refused training leaves behind (C85) keeps addresses in the caller's arrays.
* C92: `inspect_learning` keeps the address of the handler and no reference (pysol.pyx:144), so `inspect_learning(lambda ...)` leaves a
  released object to be called by the next training (pysol.pyx:41-43).
* C93: `exp_ol` looks up lower-cased names in the options as they are (experiment.py:180, 183, 199), so capital letters in an option, or
  a name to run again that is not among the options, end in a `KeyError` after the other algorithms of the first repetition were
  trained, and nothing is saved.  Kept results are taken whatever their number of repetitions (184-185), and the curves index them with
  the current number (251-253): an exception, or other repetitions than in the table.  The final training makes one pass (97), while
  cross validation uses `dtrain.pass_num`.
* C94: `convert_to_vw` runs off the end of a line without features (vw.py:35) and leaves a cut file, which the next call takes for the
  whole data (vw.py:103, 189). Translated files are never made anew, so a repeated experiment, which shuffles the training file again
  (experiment.py:197), trains `vw` on the first order every time. They are named after the data file only (vw.py:102): test data in another
  directory with the same file name are not read at all. Whether labels are shifted depends on the number of labels in each file, so
  test data with one label are compared with shifted labels.
* C95: the padding in `train_test_l2` has `x_train.shape[1] - x_train.shape[1]` columns (liblinear.py:87), so test data with fewer columns
  than the training data always fail; `train_test_l1` has it right (liblinear.py:143).
* C97: `TrainPredict` of SOP computes the weights at the features of the example only (sop.cc:55-61), so while training the bias in the
  predictions is always zero; what `Update` learns in `v[0]` (70-71) appears only in the weights of `EndTrain` (48-53).  Examples that
  only a function with bias separates cause mistakes without end.
* C98: CW keeps the diagonal of the variances only, so when two coordinates of an example differ from 0 an update stays below the confidence
  it is computed for (known for diagonal CW).  ECCW is wrong in two places: `tmp = alpha_i * phi_ * sqrtf(ui)` multiplies by the new
  standard deviation where the theory divides by it (eccw.cc:99), so while the variance of the score is at most 1 no update reaches the
  confidence; and the margin is `phi` times the variance instead of the standard deviation (eccw.cc:81), so an update of an example that
  was confident enough lowers its margin.
* C99: `showinfo` prints the key of a class up to its first underscore (sol_train.cc:108-110), so the reader `csr_matrix` is listed as `csr`,
  a name that creates nothing.
* C100: with a class that has something to do at the end of a training, `train_test` tests another model than the one it saved
  (sol_train.py:94, 113): `score` calls `EndTrain`, `save` before it does not.
* C103: `RDA_L1::TrainPredict` (rda.cc:111-113) lacks the `1e-20` that `RDA` and `ERDA_L1` add, so its first step size is 1/0; every score of
  the first example is NaN, its loss is 0 or NaN and nothing is learnt from it, whatever the example is, with every loss but the 0/1 ones.
  For the logistic losses the theorem assumes that `exp` and `log` give NaN for NaN (`KeepsNan`).
* C104: `model_sparsity` of a model without features is NaN, and the number of weights is an unsigned 32-bit product (online_linear_model.cc:149).
* C105: the best value of a cross validation is written with six digits behind the point (liblinear.py:59, vw.py:169), so a repeated run may use
  another value than the first one; below half a millionth it uses 0.
* C107: `lsol_c` returns from within the loop over the settings without releasing the model (lsol_c.cc:72).
* Seen while reading python/, without a theorem: `load` does not release the model the object had (pysol.pyx:321); `train` of sol_train.py changes its default argument `model_params` (sol_train.py:18, 59-64, 78); `train_test` logs the name of the training data before the test (sol_train.py:110).
* Seen while reading, without a theorem: `sol_split_data` hands a null `dst_type` to `std::string`, unlike `sol_shuffle_data`.
* C54: `EndTrain` of FOBOS-L1 throws when the dimension was set larger than that of the data; a label outside the class
  range indexes outside the score array.  SOFS, AdaFOBOS-OFS and AdaRDA-OFS look up feature `index - 1`, also for index 0.

## Tests against wrong programs

`seeded/LOG.jsonl` has one line per edited definition.  `theorems_failed` lists every theorem that no longer compiles.
This alone is weak evidence: a helper lemma whose proof repeats a definition also fails for an equivalent program (three
edits in the log are equivalent and were reported all the same).  Lines from the first rounds that carry `detection: helper
lemmas ... only` therefore do not show that a property theorem rules the wrong program out.
From the PA round on, failing helper lemmas are left unproved in the scratch copy until theorems of the claimed property are
reached; `helpers_set_aside` names them and `property_theorems_failed` what then failed.  A failing concrete instance
(`..._instance`, `..._is_violated`) is the strongest evidence, as it is evaluated and does not depend on proof text.
