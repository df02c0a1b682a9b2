{"id": "C01", "title": "Parallel run covers the index range exactly once", "statement": "threads.run(f, cnt, useNThreads) calls f on sub-ranges of [0,cnt) that are non-empty, pairwise disjoint, together cover [0,cnt), differ in length by at most one, and carry pairwise distinct thread ids that are smaller than the pool's worker count (main thread included).", "quantifier": "every cnt >= 1, every number of pool threads, every useNThreads argument", "why_tests_cant": "the partition depends on cnt modulo the number of threads; a test pins a few cnt/thread pairs", "anchors": ["nntl/interface/threads/workers.h: Workers::partition_count_to_workers, run", "nntl/interface/threads/parallel_range.h: parallel_range"]}
{"id": "C02", "title": "run() returns only after every sub-range was processed exactly once", "statement": "In every interleaving of the main thread and the worker threads, when run() returns each sub-range handed out by that call has been executed exactly once, and this holds for any number of consecutive run() calls on one pool.", "quantifier": "all schedules (including spurious wake-ups), any number of workers, any sequence of run() calls", "why_tests_cant": "a race needs one particular schedule; tests sample schedules", "anchors": ["nntl/interface/threads/workers.h: Workers::run, Workers::_worker"]}
{"id": "C03", "title": "run() cannot deadlock", "statement": "From every state the pool can reach while a run() call is in progress, some thread can make progress and the call can complete; a wake-up sent for a call is never lost.", "quantifier": "all schedules and all reachable pool states", "why_tests_cant": "absence of deadlock is a statement about all schedules", "anchors": ["nntl/interface/threads/workers.h: Workers::run, Workers::_worker"]}
{"id": "C04", "title": "Destroying the pool terminates all worker threads", "statement": "When the pool is destroyed all worker threads terminate and the destructor returns, whatever the workers were doing.", "quantifier": "all schedules of the destructor and the worker loops", "why_tests_cant": "the failing schedule is a tiny window between predicate evaluation and blocking", "anchors": ["nntl/interface/threads/workers.h: Workers::~Workers, Workers::_worker"]}
{"id": "C05", "title": "Parallel reduction equals the sequential one", "statement": "threads.reduce(f, sum, cnt) with exact addition returns the same value as running f once over [0,cnt) whenever f is additive over adjacent ranges; the final functor sees exactly one result per executed sub-range.", "quantifier": "every cnt, thread count, and additive range functional", "why_tests_cant": "must hold for every split point", "anchors": ["nntl/interface/threads/workers.h: Workers::reduce", "nntl/interface/math/smath_base.h / smath.h: _reduce_vec_sum"]}
{"id": "C06", "title": "Column-major element addressing is injective and in bounds", "statement": "For a matrix of r rows and c columns the storage cell of element (i,j) lies inside the allocated storage, distinct coordinates have distinct cells, and set followed by get returns the stored value while leaving every other element unchanged.", "quantifier": "all sizes and all in-range coordinates", "why_tests_cant": "must hold for all sizes and coordinates", "anchors": ["nntl/interface/math/smatrix.h: smatrix::set, get, colDataAsVec, sNumel"]}
{"id": "C07", "title": "The emulated bias vector stays all ones", "statement": "A matrix created or resized with bias emulation has exactly one extra column (or one extra row in batch-in-row layout) which holds only ones, and this stays true under every sequence of data writes through no-bias iterators, fills, random generation, copies, batch resizes, hide/restore of biases.", "quantifier": "all histories of the listed operations, all sizes, both layouts", "why_tests_cant": "needs every operation history", "anchors": ["nntl/interface/math/smatrix.h: smatrix ctor, resize, set_biases, fill, copy_data_skip_bias, deform_batch_size_with_biases, hide_biases/restore_biases"]}
{"id": "C08", "title": "clone_to produces an equal, independent matrix", "statement": "A successful clone_to leaves a destination that compares equal to the source with the same bias and layout flags, and later writes to either one do not affect the other.", "quantifier": "all matrices and all later write histories", "why_tests_cant": "aliasing must be excluded for all histories", "anchors": ["nntl/interface/math/smatrix.h: clone_to, copy_to, operator=="]}
{"id": "C09", "title": "clone_to_no_bias yields exactly the data part", "statement": "A successful clone_to_no_bias leaves a destination without bias emulation that has exactly the source's data columns and data values, whatever the destination held before.", "quantifier": "all sources and all prior states of the destination", "why_tests_cant": "depends on the prior state of the destination, which tests always start fresh", "anchors": ["nntl/interface/math/smatrix.h: clone_to_no_bias, resize"]}
{"id": "C10", "title": "Deforming never reaches outside the allocated storage and is undone exactly", "statement": "For every sequence of deform/hide/restore calls permitted by their documented preconditions the visible area stays inside the storage allocated at the last resize, no call changes stored data (except re-setting biases when asked), and hide_X followed by restore_X is the identity.", "quantifier": "all histories of deform/hide/restore calls", "why_tests_cant": "needs every history", "anchors": ["nntl/interface/math/smatrix.h: smatrix_deform::deform*, hide_last_col, hide_last_n_cols, hide_biases, restore_biases"]}
{"id": "C11", "title": "Matrix storage is released exactly once", "statement": "Under every sequence of construction, resize, clear, move, external-storage and destruction operations on any set of matrices, each block allocated by a matrix is released exactly once, external blocks are never released, and after all matrices are destroyed nothing is leaked.", "quantifier": "all operation histories over any number of matrices", "why_tests_cant": "ownership errors appear only in particular histories", "anchors": ["nntl/interface/math/smatrix.h: _realloc, _free, move ctor/assignment, useExternalStorage, useInternalStorage, clear, ~smatrix"]}
{"id": "C12", "title": "Triangular enumeration is a bijection", "statement": "Mapping k to coordinates of a strict triangle enumerates every cell (row,col) of the strict upper (lower) triangle of an n x n matrix exactly once as k runs over [0, n(n-1)/2).", "quantifier": "all n and all k", "why_tests_cant": "must hold for all sizes; tests enumerate small n", "anchors": ["nntl/interface/math/smatrix.h: sNumelTriangl, sTrianglCoordsFromIdx"]}
{"id": "C13", "title": "An epoch's mini-batches are disjoint samples of the training set", "statement": "During an epoch the batches handed out consist of floor(N/b)*b pairwise distinct training samples in shuffled order, each batch has exactly b samples; if b divides N the epoch uses every training sample exactly once.", "quantifier": "all training set sizes N, batch sizes b <= N and all shuffles (any permutation state the generator may leave behind)", "why_tests_cant": "all sizes and all random permutations", "anchors": ["nntl/train_data/inmem_train_data.h / _train_data_simple.h: on_next_epoch, on_next_batch", "nntl/train_data/_td_base.h"]}
{"id": "C14", "title": "Features and labels of a batch row belong to the same sample", "statement": "Row i of the X batch and row i of the Y batch handed to the network always come from the same row of the underlying data set, in every epoch and batch and also when walking a data set sequentially.", "quantifier": "all data sets, permutations, batch sizes, batch numbers and histories", "why_tests_cant": "needs all permutations and histories", "anchors": ["nntl/train_data/_train_data_simple.h: on_next_batch, next_subset", "nntl/interface/math/mathn.h: mExtractBatches, mExtractRows, mExtractRowsSeq"]}
{"id": "C15", "title": "Walking over a data set visits every sample", "statement": "walk_over_set(s) followed by next_subset(0..n-1), where n is the returned number of batches, visits each sample of the set exactly once and in order.", "quantifier": "all data set sizes and batch sizes", "why_tests_cant": "the failing case is one residue class of the size modulo the batch size", "anchors": ["nntl/train_data/_train_data_simple.h / _td_base.h: walk_over_set, next_subset"]}
{"id": "C16", "title": "Initialisation validates and clamps batch sizes", "statement": "After a successful init for training the reported training batch size is in [1, training samples], the maximum inference batch is >= the training batch and <= the biggest data set, zero means whole set; an invalid combination returns the documented error and leaves the object deinitialised.", "quantifier": "all set sizes and requested batch sizes", "why_tests_cant": "all combinations incl. zeros and oversize requests", "anchors": ["nntl/train_data/_train_data_simple.h: init4train, init4inference", "nntl/train_data/_i_train_data.h"]}
{"id": "C17", "title": "Successful training init is recognised as initialised", "statement": "If init4train(maxFProp, batch) succeeded then is_initialized4train with the same arguments answers true.", "quantifier": "all data set sizes and request pairs", "why_tests_cant": "fails only for particular size relations", "anchors": ["nntl/train_data/_train_data_simple.h: init4train, is_initialized4train"]}
{"id": "C18", "title": "Binary data file round trip", "statement": "Reading a well-formed file written for the documented layout returns exactly the matrices that were encoded (dimensions, element order, type), for any sizes and any order of the four named fields.", "quantifier": "all matrices, both element types, all field orders", "why_tests_cant": "all sizes/values/orders", "anchors": ["nntl/_supp/io/binfile.h: reader, binfile header/field structs"]}
{"id": "C19", "title": "Truncated files are rejected at every cut point", "statement": "If a valid file is cut at any byte before its end the reader reports an error and never success.", "quantifier": "every cut point of every valid file", "why_tests_cant": "tests cut at a few points", "anchors": ["nntl/_supp/io/binfile.h: reader::read, _impl_read_field_entry"]}
{"id": "C20", "title": "Malformed headers and fields are rejected with the documented error", "statement": "Wrong signature, wrong version, wrong field count, unknown field name, duplicate field, zero dimension, unknown element type each lead to their error code, independent of the remaining bytes.", "quantifier": "all byte strings", "why_tests_cant": "all byte strings", "anchors": ["nntl/_supp/io/binfile.h: reader::read"]}
{"id": "C21", "title": "A failed read leaves the caller's data set untouched", "statement": "If reading a training-data file fails, the destination train-data object is as it was before the call.", "quantifier": "all byte strings and prior states", "why_tests_cant": "all failure points", "anchors": ["nntl/_supp/io/binfile.h: reader::read (train_data destination), absorb"]}
{"id": "C22", "title": "The circular random-number buffer is a FIFO", "statement": "With one producer claim outstanding at a time, the values acquired by the consumer are exactly the values delivered by producers in order: none lost, duplicated, or read before being written, through any number of wrap-arounds.", "quantifier": "all interleavings of claim/deliver/acquire/release with at most one outstanding claim, all sizes", "why_tests_cant": "all histories and wrap positions", "anchors": ["nntl/utils/data_buffer.h: DataBuffer::acquire_data, release_data, as_should_work, as_done"]}
{"id": "C23", "title": "Concurrent producers never over-claim buffer space", "statement": "At any time the space claimed by producers plus unread data never exceeds the buffer capacity, for any number of concurrently outstanding claims.", "quantifier": "all interleavings of any number of producers and the consumer", "why_tests_cant": "needs three particular overlapping claims", "anchors": ["nntl/utils/data_buffer.h: DataBuffer::_as_should_work", "nntl/interface/rng/afrand_as.h"]}
{"id": "C24", "title": "Releasing an acquired chunk frees only what was acquired", "statement": "acquire followed by release removes exactly the acquired elements from the buffer; in particular acquiring zero elements and releasing changes nothing.", "quantifier": "all buffer states", "why_tests_cant": "corner state (full buffer, zero elements)", "anchors": ["nntl/utils/data_buffer.h: DataBuffer::release_data"]}
{"id": "C25", "title": "Training runs the configured number of epochs", "statement": "train() executes exactly maxEpoch epochs unless stopped, each epoch processes all batches of the epoch in order, the on-epoch-end callback is called once per finished epoch in increasing order and training stops right after the first epoch for which it returns false; the inspector sees matching begin/end events.", "quantifier": "all options, callbacks and data sets", "why_tests_cant": "all callback behaviours and lengths", "anchors": ["nntl/nnet.h: nnet::train"]}
{"id": "C26", "title": "Divergence check", "statement": "While the check is on, train() returns NNDiverged iff some epoch run with index below the divergence check limit has a training loss that is not below the threshold, and then no further epoch is run.", "quantifier": "all loss sequences and option values", "why_tests_cant": "all loss sequences", "anchors": ["nntl/nnet.h: nnet::train", "nntl/nnet_train_opts.h: divergenceCheck*"]}
{"id": "C27", "title": "Reports follow the verbosity plan", "statement": "During training a report (full loss calculation and observer call) happens exactly for the epochs flagged in the condition vector, and the last epoch is always flagged by the stride constructors.", "quantifier": "all epoch counts, strides and start epochs", "why_tests_cant": "all counts/strides", "anchors": ["nntl/utils/vector_conditions.h", "nntl/nnet.h: train"]}
{"id": "C28", "title": "Training options keep batch sizes consistent", "statement": "Whatever sequence of batchSize()/maxFpropSize() calls is made, accepted options always satisfy 0<=batchSize and (maxFpropSize==0 or maxFpropSize>=batchSize); a rejected call leaves the options unchanged.", "quantifier": "all call sequences", "why_tests_cant": "all call sequences", "anchors": ["nntl/nnet_train_opts.h: batchSize, maxFpropSize"]}
{"id": "C29", "title": "Reported loss does not depend on evaluation batching", "statement": "The loss value reported for a data set is the same whatever inference batch size is used to compute it.", "quantifier": "all data sets and batch sizes", "why_tests_cant": "all partitions of the data", "anchors": ["nntl/nnet.h: calcLossAndReport"]}
{"id": "C30", "title": "Classification accuracy report is independent of batching", "statement": "The number of correctly classified samples accumulated over batches equals the count over the whole set, for every batching that covers the set.", "quantifier": "all data sets, predictions and batchings", "why_tests_cant": "all partitions", "anchors": ["nntl/nnet_evaluator.h", "nntl/training_observer.h"]}
{"id": "C31", "title": "Layer indices are unique and contiguous", "statement": "After constructing a layer stack of at most 65535 layers (layer_index_t has 16 bits) with arbitrarily nested packs each layer has a distinct index, indices are assigned in depth-first order starting at 0, the total equals the number of layers, and a stack that contains the same layer object twice is refused.", "quantifier": "all layer trees", "why_tests_cant": "all nestings", "anchors": ["nntl/layers.h: layers ctor", "nntl/layer/_init_layers.h: _preinit_layers, init_layer_index"]}
{"id": "C32", "title": "Horizontal packs cover every incoming neuron", "statement": "Constructing a horizontal pack is refused iff some incoming neuron is not covered by any receptive field or a receptive field reaches outside of the incoming neurons; for the optional (gated) pack acceptance additionally means the fields are pairwise disjoint.", "quantifier": "all numbers of neurons and all receptive-field lists", "why_tests_cant": "all field lists", "anchors": ["nntl/layer/_lph_base.h: _preinit_layer", "nntl/layer/_init_layers.h: preparePHLCheck, PHLCheck", "nntl/layer/pack_horizontal_optional.h: layer init"]}
{"id": "C33", "title": "Temporary memory announced by layers is sufficient", "statement": "For every layer tree the amount of shared temporary memory computed during init is enough: while distributing it, no layer (at any depth) receives less than it announced as needed for the mode it runs in.", "quantifier": "all layer trees, layer requirements and batch sizes", "why_tests_cant": "all trees", "anchors": ["nntl/layer/_init_layers.h: layers_mem_requirements", "nntl/layer/_lph_base.h: layer_init, initMem", "nntl/layer/pack_vertical.h", "nntl/nnet.h: _totalTrainingMemSize, _processTmpStor"]}
{"id": "C34", "title": "A horizontal pack leaves the lower layer's activations unchanged", "statement": "While forward/backward passing through receptive fields, bias columns are temporarily spliced into the lower layer's activation storage; after each inner layer call the lower activations are bit-identical to before, and during the call the inner layer sees its own columns followed by a column of ones.", "quantifier": "all widths, field positions and batch sizes", "why_tests_cant": "all positions", "anchors": ["nntl/layer/_pack_.h: _trainable_partial_layer_wrapper"]}
{"id": "C35", "title": "Horizontal pack output layout and gradient accumulation", "statement": "The output columns of the packed layers occupy consecutive disjoint column blocks covering the pack's output exactly, and the gradient passed down is for every incoming neuron the sum of the gradients of all inner layers whose receptive field covers it.", "quantifier": "all packs and gradients", "why_tests_cant": "all packs", "anchors": ["nntl/layer/_lph_base.h: on_batch_size_change", "nntl/layer/pack_horizontal.h: bprop"]}
{"id": "C36", "title": "Back-propagation always hands each layer the right gradient buffer", "statement": "With two alternating gradient buffers, every layer's bprop receives in its input buffer exactly the gradient produced by the layer above, whatever subset of layers reports having left the result in place.", "quantifier": "all layer counts and all patterns of in-place/alternate results", "why_tests_cant": "all 2^n patterns", "anchors": ["nntl/layers.h: bprop", "nntl/layer/pack_vertical.h: bprop", "nntl/layer/pack_tile.h: bprop"]}
{"id": "C37", "title": "Gated rows", "statement": "In the optional horizontal pack, an inner layer is given exactly the samples for which its gate is open, in order, and in the pack's output the rows of closed samples are zero while the rows of open samples hold the inner layer's output for that sample.", "quantifier": "all gate masks, sizes and inner layers that act row-wise", "why_tests_cant": "all masks", "anchors": ["nntl/layer/pack_horizontal_optional.h: fprop", "nntl/interface/math/mathn.h: mExtractRowsByMask, mFillRowsByMask"]}
{"id": "C38", "title": "Internal scratch allocator is a well-nested stack", "statement": "Blocks obtained from the math object's scratch storage are pairwise disjoint while alive and lie inside the reserved storage, for every well-nested sequence of allocations and releases; after releasing all the full capacity is available again; out-of-order release or overflow is detected.", "quantifier": "all allocation histories", "why_tests_cant": "all histories", "anchors": ["nntl/interface/math/smath.h: _istor_alloc, _istor_free, preinit, init, deinit"]}
{"id": "C39", "title": "Row-wise argmax returns the first maximum, independent of threading", "statement": "For each row mrwIdxsOfMax returns the smallest column index holding the row's maximum; the result does not depend on whether the single-threaded or a multi-threaded variant is selected.", "quantifier": "all matrices, thread counts and column splits", "why_tests_cant": "thread splits with ties across split boundaries", "anchors": ["nntl/interface/math/smath.h: mrwIdxsOfMax*"]}
{"id": "C40", "title": "Row-wise max and sum are independent of the code path", "statement": "mrwMax and mrwSum give for every row the maximum (exact sum) of the row for each of the row-wise, column-wise, and threaded variants.", "quantifier": "all matrices and all splits, exact arithmetic", "why_tests_cant": "all splits", "anchors": ["nntl/interface/math/smath.h: mrwMax*, mrwSum_ip*, _processMtx_cw, _processMtx_rw"]}
{"id": "C41", "title": "Tiling roll and unroll are mutually inverse", "statement": "mTilingUnroll after mTilingRoll restores the data exactly and vice versa; both code variants and every thread split compute the same permutation, and bias columns are not touched.", "quantifier": "all matrix sizes, tile counts and splits", "why_tests_cant": "all shapes", "anchors": ["nntl/interface/math/smath.h: mTilingRoll*, mTilingUnroll*"]}
{"id": "C42", "title": "Column cloning", "statement": "mCloneCols writes source column j pColSpec[j] times in order and nothing else, for every thread split.", "quantifier": "all column specifications including zero counts, all splits", "why_tests_cant": "all specs and splits", "anchors": ["nntl/interface/math/smath.h: mCloneCols*"]}
{"id": "C43", "title": "Row/batch extraction", "statement": "mExtractRows/mExtractCols/mExtractRowsSeq copy exactly the requested rows (samples) in the requested order, for every thread split, leaving the bias vector of the destination untouched.", "quantifier": "all sizes, index lists and splits", "why_tests_cant": "all index lists and splits", "anchors": ["nntl/interface/math/mathn.h: _imExtractRows_seqWrite_st, _imExtractCols_st, _imExtractRowsSeq_st"]}
{"id": "C44", "title": "Transposition", "statement": "Both transposition variants produce dest(j,i)=src(i,j) for the selected (bias ignoring or not) area and leave the rest of dest untouched; transposing twice restores the matrix.", "quantifier": "all sizes, layouts and bias settings", "why_tests_cant": "all sizes", "anchors": ["nntl/interface/math/mathn.h: mTranspose_seq_read, mTranspose_seq_write"]}
{"id": "C45", "title": "Finding the k best distinct values", "statement": "After processing any number of batches, the result column holds the k largest distinct values (smallest, for the Smallest variant) seen in all batches in order, each with an index at which it occurs in the current batch or an invalid index if it comes from an earlier batch.", "quantifier": "all inputs, k, batch sequences", "why_tests_cant": "all inputs", "anchors": ["nntl/interface/math/mathn.h: mcwFindKOrdered"]}
{"id": "C46", "title": "Aggregating k-best results over batches", "statement": "After aggregating every batch in turn the aggregator maps each of the k best values to a batch and in-batch index at which this value really occurs.", "quantifier": "all batch sequences, for distinct and non-distinct orders", "why_tests_cant": "all sequences; ties", "anchors": ["nntl/interface/math/_mcwFindKOrdered_hlpr.h: Aggregator::aggregate"]}
{"id": "C47", "title": "Softmax yields a probability distribution per row", "statement": "softmax() makes every row of the data part positive with sum one and leaves biases untouched; the result is independent of adding a constant to the row and of the threading variant.", "quantifier": "all real matrices, exact arithmetic", "why_tests_cant": "all inputs", "anchors": ["nntl/interface/math/mathn.h: softmax_st, softmax_parts"]}
{"id": "C48", "title": "Momentum and Nesterov updates compute the documented recurrences", "statement": "Applying gradients with momentum makes the velocity the exponentially weighted sum of all past gradients; with Nesterov momentum the weights at which gradients are evaluated follow the documented look-ahead recurrence.", "quantifier": "all gradient histories, momentum values", "why_tests_cant": "all histories", "anchors": ["nntl/grad_works/grad_works.h: pre_training_fprop, apply_grad", "nntl/interface/math/mathn.h: apply_momentum, evMulC_ip_Sub_ip"]}
{"id": "C49", "title": "Blocked learning changes nothing", "statement": "While learning is blocked (or the learning rate is zero) applying a gradient leaves weights and all optimiser state unchanged.", "quantifier": "all histories mixing blocked and unblocked steps", "why_tests_cant": "all histories", "anchors": ["nntl/grad_works/grad_works.h: apply_grad, pre_training_fprop"]}
{"id": "C50", "title": "Adam bookkeeping", "statement": "After t calls of Adam the bias-correction accumulators equal beta1^t and beta2^t, the moment estimates equal the exponentially weighted sums of past gradients and squares, and the result is the same for the single and multi-threaded variants.", "quantifier": "all t, gradients, splits, exact arithmetic", "why_tests_cant": "all histories", "anchors": ["nntl/interface/math/mathn.h: Adam, _iAdam_st, Adam_mt"]}
{"id": "C51", "title": "Individual learning rate gains", "statement": "Individual gains move up only when the gradient keeps its sign, down only when it flips, stay otherwise, and never leave the interval (capLow*decr, capHigh*incr) once inside it.", "quantifier": "all gradient histories", "why_tests_cant": "all histories", "anchors": ["nntl/interface/math/mathn.h: apply_ILR*", "nntl/grad_works/ILR.h"]}
{"id": "C52", "title": "Max-norm bound", "statement": "After mCheck_normalize_rows every row's squared L2 norm (over the selected columns) is at most the bound, rows already within it are unchanged, and directions are preserved.", "quantifier": "all matrices and bounds, exact arithmetic", "why_tests_cant": "all matrices", "anchors": ["nntl/interface/math/mathn.h: mCheck_normalize_rows_st", "nntl/grad_works/grad_works.h: max norm"]}
{"id": "C53", "title": "Dropout", "statement": "Dropout keeps exactly the activations whose random draw is below the keep probability scaled by its inverse and zeroes the others, the mask equals the multiplier applied, biases are untouched and in evaluation mode activations are unchanged.", "quantifier": "all activations, draws, keep probabilities", "why_tests_cant": "all draws", "anchors": ["nntl/dropout/dropout.h", "nntl/interface/math/mathn.h: make_dropout"]}
{"id": "C54", "title": "Normalisation statistics compose", "statement": "Applying the accumulated scale and offset of a normalisation run to fresh data gives the same result as replaying all its individual rescale steps.", "quantifier": "all sequences of rescale steps", "why_tests_cant": "all sequences", "anchors": ["nntl/utils/mtx2Normal.h: ScaleCentralData"]}
{"id": "C55", "title": "Black/white list decisions", "statement": "A layer is listed iff (whitelist mode and it was named) or (blacklist mode and it was not named), after any sequence of mode and list operations; switching mode empties the lists.", "quantifier": "all histories", "why_tests_cant": "all histories", "anchors": ["nntl/utils/bwlist.h"]}
{"id": "C56", "title": "Binary classification counts", "statement": "After any sequence of updates and reductions the confusion matrix counters equal the number of samples with the given prediction and ground truth.", "quantifier": "all sequences and splits", "why_tests_cant": "all sequences", "anchors": ["nntl/utils/confusion_mtx.h"]}
{"id": "C57", "title": "Per-layer settings", "statement": "The settings storage behaves like a map from layer index to settings with a default: lookup returns the last settings added for that layer or the default.", "quantifier": "all histories", "why_tests_cant": "all histories", "anchors": ["nntl/utils/layers_settings.h"]}
{"id": "C58", "title": "Mixin options do not alias", "statement": "Setting a binary option through one mixin never changes an option read through another mixin or another option of the same mixin.", "quantifier": "any number of mixins and option counts", "why_tests_cant": "all compositions", "anchors": ["nntl/utils/mixins.h: make_cumsum_vec_c, binary_options_storage"]}
{"id": "C59", "title": "Mini-batch feeder of the generic data holder", "statement": "The data holder delivers every full mini-batch of its data between two reshuffles.", "quantifier": "all sizes", "why_tests_cant": "boundary when the batch size divides the data size", "anchors": ["nntl/utils/dataHolder.h: nextBatch"]}
{"id": "C60", "title": "Loss addendums ignore biases and add the documented amounts", "statement": "The L1/L2 addendum value is scale times the sum of |w| (w^2/2) over the non-bias weights, its gradient contribution is scale*sign(w) (scale*w) on those weights only, and the bias weights' gradient and the weight matrix shape are unchanged afterwards.", "quantifier": "all weight matrices and scales", "why_tests_cant": "all inputs", "anchors": ["nntl/grad_works/loss_addendums.h", "nntl/loss_addendum/L1.h", "nntl/loss_addendum/L2.h"]}
{"id": "C61", "title": "A failed inference initialisation is not reported as initialised", "statement": "If init4inference reports an error, is_initialized4inference afterwards answers false.", "quantifier": "all data sets, requested sizes and allocation failures", "why_tests_cant": "needs allocation failures at particular points", "anchors": ["nntl/train_data/_train_data_simple.h: init4inference, is_initialized4inference"]}
{"id": "C62", "title": "The bias column of the feature batch is always one", "statement": "After any sequence of calls on the training data object, every bias element of the feature batch buffer equals one.", "quantifier": "all histories of calls, sizes, thread splits and write orders", "why_tests_cant": "all histories", "anchors": ["nntl/train_data/_train_data_simple.h: on_next_epoch, on_next_batch, walk_over_set, next_subset"]}
{"id": "C63", "title": "Announced batches can be delivered", "statement": "Every batch number below the count returned by on_next_epoch or walk_over_set can be fetched: no internal check fails and nothing aborts.", "quantifier": "all reachable states, batch numbers, exclusions and layouts", "why_tests_cant": "all sizes and histories", "anchors": ["nntl/train_data/_train_data_simple.h: on_next_batch, next_subset"]}
{"id": "C64", "title": "Weights are learnt in training mode only", "statement": "Every forward and backward pass that changes weights is made with the network in training mode and with the training batch size, whatever reports, callbacks and evaluations were made in between.", "quantifier": "all options, callbacks, epochs and batch counts", "why_tests_cant": "all interleavings of reports and callbacks", "anchors": ["nntl/nnet.h: train, calcLossAndReport, _set_mode_and_batch_size"]}
{"id": "C65", "title": "A finished training cleans up", "statement": "However train() ends, the inspector is switched back to the state it was in before, the observer is deinitialised exactly as often as it was successfully initialised, and the network is deinitialised exactly once if immediate deinitialisation was asked for and the data fits the network, otherwise not at all.", "quantifier": "all options and outcomes", "why_tests_cant": "all outcomes, including failures of every initialisation step", "anchors": ["nntl/nnet.h: train"]}
{"id": "C66", "title": "A negative initialisation answer changes nothing", "statement": "If is_initialized4train answers false, its in/out arguments keep their values (documented contract of the training data interface).", "quantifier": "all states and arguments", "why_tests_cant": "all arguments", "anchors": ["nntl/train_data/_i_train_data.h: is_initialized4train", "nntl/train_data/_train_data_simple.h: is_initialized4train"]}
{"id": "C67", "title": "Each training session uses its own batch sizes", "statement": "train() processes batches of the size its own options ask for, whatever sessions were run before on the same network object.", "quantifier": "all option values and histories of sessions", "why_tests_cant": "all histories", "anchors": ["nntl/nnet.h: _init4train, train"]}
{"id": "C68", "title": "Announced scratch memory suffices", "statement": "Every math routine, loss addendum and gradient works object that takes scratch memory from the math object takes, at any nesting, at most what was announced for it during initialisation for the biggest batch, so that no such routine aborts the program for any batch not bigger than announced; nested announcements reserve the most memory held at one time.", "quantifier": "all matrix sizes, numbers of workers, thresholds, options and nestings", "why_tests_cant": "the variants are selected by sizes and thresholds; running out aborts the process", "anchors": ["nntl/interface/math/smath.h: _processMtx_cw_needTempMem, mrwIdxsOfMax_needTempMem, mrwSum_needTempMem, preinit_push, preinit_pop", "nntl/interface/math/mathn.h: softmax_needTempMem, mCheck_normalize_rows_needTempMem, apply_ILR_needTempMem, loss_DeCov_needTempMem", "nntl/grad_works/grad_works.h: gw_init, pre_training_fprop, apply_grad"]}
{"id": "C69", "title": "Gradient matrices fit every layer", "statement": "During back-propagation the two gradient matrices handed to every layer at any depth (stack, horizontal, vertical, tile packs) hold at least as many elements as the layer announced and as the gradient it must produce for the layer below.", "quantifier": "all layer trees, neuron counts and batch sizes", "why_tests_cant": "all trees; an overflow is silent memory corruption", "anchors": ["nntl/layers.h: bprop", "nntl/nnet.h: _processTmpStor", "nntl/layer/_lph_base.h: layer_init, initMem", "nntl/layer/pack_vertical.h", "nntl/layer/pack_tile.h"]}
{"id": "C70", "title": "RMS-type optimisers: averages, bounded steps and no square root of a negative number", "statement": "With RMSProp the running average after any number of steps is the discounted sum of all squared gradients (the first with full weight) and no weight moves further than rate/sqrt(1-beta) in one step; ModProp does the same with absolute values; the variance estimate of the Graves variant is never negative; RProp moves every weight by exactly the learning rate against the sign of its gradient.", "quantifier": "every sequence of gradients and settings, every session length, matrix size, thread count and schedule", "why_tests_cant": "The averages depend on the whole history of gradients; tests run a few steps from fixed seeds.", "anchors": ["nntl/grad_works/grad_works.h", "nntl/interface/math/mathn.h: RMSProp_Hinton, RMSProp_Graves, ModProp, RProp"]}
{"id": "C71", "title": "AdaMax tracks the discounted maximum of all gradients", "statement": "After any number of AdaMax steps the second accumulator is the maximum over all past steps of the absolute gradient discounted by the betas since, and the first accumulator, power and direction are those of the published algorithm.", "quantifier": "every sequence of gradients and betas, every session length, matrix size, thread count and schedule", "why_tests_cant": "The maximum ranges over an unbounded history.", "anchors": ["nntl/grad_works/grad_works.h", "nntl/interface/math/mathn.h: AdaMax"]}
{"id": "C72", "title": "Nadam and RAdam averages are already bias-corrected", "statement": "With constant betas, after t steps of Nadam or RAdam the stored averages equal Adam's averages divided by 1-beta^t, and the stored powers equal beta^t.", "quantifier": "every sequence of gradients, every session length, matrix size, thread count and schedule", "why_tests_cant": "The identity ranges over all step counts and histories.", "anchors": ["nntl/grad_works/grad_works.h", "nntl/interface/math/mathn.h: RNadam"]}
{"id": "C73", "title": "Dropout preserves the statistics of activations", "statement": "Classical dropout leaves the expected value of every activation unchanged; alpha dropout leaves mean and variance of a layer with the configured fixed point unchanged.", "quantifier": "every keep probability, every distribution of activations over finitely many values", "why_tests_cant": "Statements about distributions, not about samples.", "anchors": ["nntl/dropout/dropout.h", "nntl/dropout/alpha_dropout.h", "nntl/_SNN_common.h: calc_coeffs", "nntl/interface/math/mathn.h: make_dropout, make_alphaDropout"]}
{"id": "C74", "title": "Successful normalisation means the statistics are within tolerance", "statement": "When normalising a training data source reports success, every requested statistic of the training set (scale, central value; of the whole set or of every column) is within the requested tolerance of its target.", "quantifier": "all data, statistics functions, settings and thread schedules", "why_tests_cant": "The loop rescales repeatedly and decides from flags of the last step; no finite set of data settles when it may stop.", "anchors": ["nntl/utils/mtx2Normal.h: normalize_whole, normalize_cw", "nntl/train_data/_td_norm.h", "nntl/train_data/inmem_train_data.h", "nntl/train_data/transf_train_data.h"]}
{"id": "C75", "title": "Normalising data that is already normal", "statement": "Normalising a data source whose statistics are already within tolerance succeeds and leaves the data unchanged.", "quantifier": "all data, statistics functions and settings", "why_tests_cant": "Quantifies over every data set and setting.", "anchors": ["nntl/utils/mtx2Normal.h: normalize_whole", "nntl/train_data/_td_norm.h"]}
{"id": "C76", "title": "Scores of binary classification", "statement": "For all counts, precision, recall, specificity, negative predictive value, accuracy, Jaccard index and F1 score are computed and between 0 and 1 wherever defined, and are the shares of samples their names say; informedness and markedness are sums of two of these shares less one, between -1 and 1; F1 is the harmonic mean of precision and recall, F-beta the weighted one; the correlation coefficient is Matthews' formula, lies between -1 and 1 and reaches these only for predictions that are all right or all wrong.", "quantifier": "all counter values", "why_tests_cant": "Numeric ranges over all counts; the integer part is computed in 32-bit arithmetic, whose overflow depends on sizes no test uses.", "anchors": ["nntl/utils/confusion_mtx.h: MCC, F1Score, FBetaScore, Precision, Recall, Accuracy, Jaccard"]}
{"id": "C77", "title": "Rows shown by the generic data holder", "statement": "After any history of batch size changes and batches within the documented limits, the next batch of the data holder shows exactly as many distinct rows of the data as its batch size says, with the labels of the same rows in the same order, and the reported row indices are those of the batch.", "quantifier": "all data sizes, batch sizes, shuffles and histories", "why_tests_cant": "Needs every history and permutation.", "anchors": ["nntl/utils/dataHolder.h: init, prepareToBatchSize, nextBatch, curBatchIdxs"]}
{"id": "C78", "title": "Derivative from the value of an activation", "statement": "For every activation function and every admissible parameter, replacing preactivations by activations and then activations by what the derivative call returns leaves, in each element, the derivative of the activation function at the original preactivation wherever that derivative exists, for any number of threads and thresholds, and bias elements are never touched.", "quantifier": "all activation classes, parameters, preactivations, matrix sizes, thread counts and interleavings", "why_tests_cant": "A statement about derivatives at every real number; finite differences at sample points do not settle it.", "anchors": ["nntl/activations/*.h: f, df", "nntl/interface/math/mathn.h: sigm, dsigm, relu, elu, elogu, loglogu, logu, softsign, softsigm, selu, step and their derivatives"]}
{"id": "C79", "title": "Values of activation functions", "statement": "Every activation function computes its documented formula, never decreases, stays within its documented range, and the flag saying whether it maps zero to zero is right; what the derivative kernels assert about their arguments holds for every computed activation.", "quantifier": "all activation classes, parameters and preactivations", "why_tests_cant": "Ranges over all real numbers and parameter values.", "anchors": ["nntl/activations/*.h", "nntl/interface/math/mathn.h"]}
{"id": "C80", "title": "Values of loss functions", "statement": "The loss reported for a batch is the sum of the per-element losses: half the squared error for quadratic losses (weighted where the class says so), cross entropy for 0/1 answers, minus the sum of answer times log probability for softmax - independently of the number of threads, the threshold between the variants and compensated summation.", "quantifier": "all matrices, answers, thread counts and partitions", "why_tests_cant": "Needs every partition of the elements among threads and every size.", "anchors": ["nntl/interface/math/mathn.h: loss_quadratic, loss_quadratic_ns, loss_xentropy, loss_xentropy_ns, loss_softmax_xentropy, compute_loss", "nntl/activations/_loss_parts.h", "nntl/interface/math/smath.h: _reduce_vec_sum"]}
{"id": "C81", "title": "Gradient of the output layer", "statement": "The output layer replaces its activations by the partial derivatives of the reported loss with respect to the preactivations, with the activation function switched on or off, cut to the configured bounds; the cut never changes a sign or increases a magnitude.", "quantifier": "all output activation classes, parameters, answers, preactivations, bounds, thread counts and interleavings", "why_tests_cant": "A statement about derivatives at every real number.", "anchors": ["nntl/activations/sigm.h, softsigm.h, identity.h, softmax.h: dLdZ, dLdZIdentity", "nntl/layer/output.h: restrict_dL_dZ, _outp_bprop", "nntl/interface/math/mathn.h: dSigmQuadLoss_dZ, dSoftSigmQuadLoss_dZ, dSoftSigmXEntropyLoss_dZ, dIdentityXEntropyLoss_dZ, dLoss_dZ, evClamp"]}
{"id": "C82", "title": "Matrix products of the layers", "statement": "For every pair of layouts of the matrices, the forward product gives each sample the weighted sum of its incoming features plus the bias of the neuron, the backward product gives each sample the weighted sum of its outgoing gradients without biases, the weight gradient is the scaled sum over samples of gradient times feature (with the bias column), the plain products and the covariance of columns are what they say; biases, headers and memory behind the destination are untouched, and every array handed to BLAS lies inside its buffer.", "quantifier": "all matrix sizes, contents and combinations of layouts that pass the assertions", "why_tests_cant": "The combinations of transposition flags, leading dimensions and hidden bias columns have to be right for every size.", "anchors": ["nntl/interface/math/mathn.h: mMulAB_C, mMulABt_Cnb, mScaledMulAtB_C, mMul_prevAct_weights_2_act, mMul_dLdZ_weights_2_dLdAPrev, mMulScaled_dLdZ_prevAct_2_dLdW, mColumnsCov"]}
{"id": "C83", "title": "Operations on columns and sums over a triangle", "statement": "Column means, subtracting means (of all elements or of those that differ from a central value), subtracting a row vector and multiplying by a diagonal give the documented element-wise result for any number of threads, with plain or compensated summation; the sum of squares over one triangle of a square matrix adds each cell of the triangle exactly once, however the triangle is cut into ranges.", "quantifier": "all matrix sizes and contents, both triangles, all partitions among threads and interleavings", "why_tests_cant": "Needs every size and every cut of the triangle.", "anchors": ["nntl/interface/math/smath.h: mcwMean, mcwDeMean, mcwDeMeanNZ, mcwSub_ip, mcwMulDiag_ip, ewSumSquaresTriang, _triang_apply_func_get_result"]}
{"id": "C84", "title": "Decorrelation penalty and its gradient", "statement": "The decorrelation addendum reports its scale times half the sum of squared covariances of different neurons divided by the number of neurons less one; the gradient it adds is the derivative of that value along every path of the activations, in each variant (either triangle, stored on the forward pass or calculated on the backward pass), whatever was in the temporary buffers.", "quantifier": "all batches, sizes, scales, both triangles, thread counts and interleavings", "why_tests_cant": "A statement about derivatives at every point of a space of any dimension.", "anchors": ["nntl/interface/math/mathn.h: loss_deCov, dLoss_deCov, dLoss_deCov_ip", "nntl/loss_addendum/DeCov.h", "nntl/loss_addendum/_i_loss_addendum.h: _appendGradient"]}
{"id": "C85", "title": "Backpropagation computes the derivative of the loss", "statement": "In a training step the matrix each optimiser is given is the derivative, with respect to the weights of its layer, of the mean loss of the batch that the forward pass computes with the weights it had; this holds for every tree of fully connected layers in vertical, horizontal and tile packs, at any point of the life of the network, and for output layers with elementwise or softmax losses.", "quantifier": "all layer trees, weights, batches, directions in the space of all weights, and histories of uses of the network", "why_tests_cant": "A statement about derivatives at every point of a space of any dimension, for every tree; gradient checks sample a few weights of a few networks within a tolerance.", "anchors": ["nntl/layer/fully_connected.h: _lfc_fprop, _lfc_bprop", "nntl/layer/output.h: _outp_bprop", "nntl/layer/pack_vertical.h: bprop", "nntl/layer/pack_horizontal.h: bprop", "nntl/layer/pack_tile.h: bprop", "nntl/layers.h: bprop", "nntl/nnet.h: train, _calcLoss4batch"]}
{"id": "C86", "title": "Divergence is judged by the mean loss of the training set", "statement": "While the divergence check is on, train() stops with the divergence error after an epoch if and only if the mean over the training samples of the loss of the network with its current weights (plus the addenda of the layers) reaches the threshold set by the user, whatever maximal size of a forward pass the training set is evaluated with.", "quantifier": "all networks, data sets, sizes of forward passes", "why_tests_cant": "Tests evaluate small sets in one pass.", "anchors": ["nntl/nnet.h: calcLossAndReport, _calcLoss4batch, _report_training_progress, train", "nntl/train_data/_train_data_simple.h: walk_over_set, next_subset"]}
{"id": "C87", "title": "Loss addenda in the reported loss are those of the current weights", "statement": "Whenever a loss is reported or calculated on request, the addenda of the layers are included once and calculated for the current weights, whatever was cached by earlier calculations, and addenda that are switched on are included.", "quantifier": "all networks and all histories of training steps, reports and calculations started by callbacks", "why_tests_cant": "Staleness of a cache shows only for particular histories.", "anchors": ["nntl/layers.h: calcLossAddendum, resetCalcLossAddendum", "nntl/nnet.h: calcLossAndReport, _report_training_progress, train", "nntl/layer/fully_connected.h: init"]}
{"id": "C88", "title": "Function given to the background workers is called once per thread, completely", "statement": "A function given to exec() of the background workers is called exactly once on each worker thread; exec() does not return before all of these calls have ended; and no thread uses the function after exec() has returned. This holds for any number of calls of exec(), with any tasks in the list, under every interleaving and with spurious and early wake-ups.", "quantifier": "all numbers of threads, all sequences of calls of the interface, all interleavings, both kinds of condition variables", "why_tests_cant": "Tests exercise a few interleavings; the order of flag, counter and notification matters only in rare ones.", "anchors": ["nntl/interface/threads/bgworkers.h: BgWorkers::exec, _worker, _ctor"]}
{"id": "C89", "title": "Background tasks follow the list, and a deleted task is never called", "statement": "A task is executed only while it is in the list of tasks; after delete_tasks() has cleared the list none is being executed and a task is not called again until it is added again. In each pass over the list a thread calls each task until it returns false and then the next one, in the order of descending priorities; a pass that was not interrupted has gone over all tasks. The list is never changed while a thread goes over it, and no task is begun while a call of the interface waits for the list.", "quantifier": "all numbers of threads, all sequences of calls of the interface, all results of tasks, all interleavings", "why_tests_cant": "Use of a deleted task shows only if the deletion coincides with a pass.", "anchors": ["nntl/interface/threads/bgworkers.h: BgWorkers::add_task, delete_tasks, expect_tasks_count, set_task_wait_timeout, _worker, disperse_locker"]}
{"id": "C90", "title": "Calls of the background workers finish", "statement": "There is no deadlock and no lost wake-up: while a call of the interface is in progress some thread can act. The destructor terminates in every execution, whatever the threads were doing. A call of exec() waits at most for the present call of a task by each thread and for the function itself.", "quantifier": "all reachable states and all interleavings", "why_tests_cant": "Liveness under all schedules.", "anchors": ["nntl/interface/threads/bgworkers.h: ~BgWorkers, exec, _worker, disperse_locker", "nntl/interface/threads/_sync_primitives.h: win_condition_var::wait_for_shared, lockShared_waitFor_unlock"]}
{"id": "C91", "title": "Shared members of the background workers are accessed under the lock", "statement": "No thread accesses a plain (not atomic) member of the background workers while another one writes it.", "quantifier": "all reachable states", "why_tests_cant": "A data race has no observable effect in most runs.", "anchors": ["nntl/interface/threads/bgworkers.h: m_tasks, m_execFn, m_threadHasSmth2Exec"]}
{"id": "C92", "title": "LSUV: success means that all layers are within tolerance", "statement": "When the data-dependent weight initialisation (LSUV) returns true, the scale and the central value of every layer (or of every neuron of it) it was asked to normalise are within the tolerances of its settings, for the weights all layers have in the end. When it returns false it names the first layer that is not. With fewer than two samples it returns false and changes nothing.", "quantifier": "all networks (trees of layers), weights, data, settings per layer, thread counts", "why_tests_cant": "Later layers are changed after earlier ones were measured, and the flag sums up loops over tries, layers and re-initialisations.", "anchors": ["nntl/weights_init/LsuvExt.h: run, operator(), _processLayer, normalize_whole, normalize_cw", "nntl/utils/mtx2Normal.h: normalize_whole, normalize_cw"]}
{"id": "C93", "title": "LSUV changes only what it was asked to change", "statement": "After LSUV, with either result, activation functions are switched on again in all layers, layers it was not asked to normalise have kept their weights, and the weights of a normalised layer are its old weights (or weights its initialisation scheme made) with the weights of each neuron multiplied by one number and something added to its bias: one number for all neurons unless neurons are normalised one by one.", "quantifier": "all networks, weights, data, settings, thread counts", "why_tests_cant": "Loops with early exits in many places have to restore flags.", "anchors": ["nntl/weights_init/LsuvExt.h: _processLayer, normalize_whole, normalize_cw"]}
{"id": "C94", "title": "LSUV over pre-activations converges in three tries", "statement": "On chains of fully connected layers, normalisation over pre-activations with a positive target scale and positive tolerances, three tries and at least one attempt always succeeds, for any weights, data and activation functions; then central values are within tolerance and so are scales, except those of layers (neurons) whose pre-activations are all equal.", "quantifier": "all chains of fully connected layers, weights, data of at least two samples, settings", "why_tests_cant": "Convergence for all inputs.", "anchors": ["nntl/weights_init/LsuvExt.h: normalize_whole, normalize_cw", "nntl/utils/mtx2Normal.h: get_central, get_scale", "nntl/layer/fully_connected.h: _lfc_fprop"]}
{"id": "C95", "title": "LSUV centres activations of any slope", "statement": "Centring a layer over its activations converges for activation functions with a declared scaling coefficient (SELU).", "quantifier": "all layers whose activations follow their biases with the slope the activation function declares; all tries", "why_tests_cant": "Convergence for all inputs.", "anchors": ["nntl/weights_init/LsuvExt.h: _processLayer, normalize_whole", "nntl/activations/selu.h: act_scaling_coeff"]}
{"id": "C96", "title": "Dense initialisation: own number per weight, zero biases", "statement": "The He schemes (and the scheme for SELU) give each connection a random number of its own, set all biases to zero and write nothing outside of the matrix.", "quantifier": "all sizes, all sequences of random numbers", "why_tests_cant": "Off-by-one columns give plausible matrices.", "anchors": ["nntl/weights_init/static.h: He_Zhang, He_Zhang2, SNNInit"]}
{"id": "C97", "title": "Orthogonal initialisation", "statement": "When the orthogonal scheme succeeds the rows (columns, when there are more rows) of the weight matrix are orthogonal with length equal to the gain; when it fails all attempts have failed, each on new random numbers.", "quantifier": "all sizes, gains, numbers of attempts, thread counts", "why_tests_cant": "Depends on the loop over attempts and on the later scaling.", "anchors": ["nntl/weights_init/static.h: OrthoInit"]}
{"id": "C98", "title": "Sparse initialisation", "statement": "The sparse scheme gives every neuron exactly the number of incoming connections asked for (all of them, when the previous layer is smaller), to different neurons, each with a random number of its own; all other connections are zero and all biases have the given value. No other memory is touched.", "quantifier": "all sizes, all shuffles, all sequences of random numbers", "why_tests_cant": "Repeated columns occur only for some shuffles.", "anchors": ["nntl/weights_init/static.h: Martens_SI"]}
{"id": "C99", "title": "Backpropagation through dropout and penalties on activations", "statement": "In a network whose layers have dropout or alpha dropout and penalties on their activations (L1, L2, DeCov, any number of them, calculated in the forward or in the backward pass), a training step gives the optimisers the derivative of the reported objective (mean loss plus penalties of the activations before dropout) for the random numbers drawn in that step, after any history of training and inference; in inference mode layers behave as if they had no dropout and no penalties.", "quantifier": "all trees of layers, weights, histories, batches, random numbers, keep probabilities, lists of penalties", "why_tests_cant": "Masks, saved activations and stored terms of earlier passes could be used in a later one; the gradient is a derivative over the reals.", "anchors": ["nntl/layer/extender.h: _LEx, fprop, bprop, _fprop4PA, _update_dLdA", "nntl/layer/_penalized_activations_base.h: _pab_fprop, _pab_update_dLdA, _pab_lossAddendum", "nntl/dropout/dropout.h: _dropout_apply, _dropout_restoreScaling", "nntl/loss_addendum/L1.h, L2.h, DeCov.h: lossAdd, on_fprop, dLossAdd"]}
{"id": "C100", "title": "Training is reproducible and evaluations do not influence it", "statement": "Two networks with the same layers, weights, optimiser states and random numbers that go through the same training steps have the same weights, the same optimiser states and the same outputs for every batch afterwards, whatever was in their buffers, whatever mode and batch size they were in, and whatever evaluations of any batch sizes took place between the training steps.", "quantifier": "all trees of layers, optimisers and settings (also changing ones), histories of training steps and evaluations, batch sizes, batches, initial contents of memory", "why_tests_cant": "A value left over in a mask, a buffer or an uninitialised matrix influences only some histories.", "anchors": ["nntl/nnet.h: _train, _fprop, set_mode_and_batch_size", "nntl/layer/fully_connected.h: _lfc_fprop, _lfc_bprop", "nntl/layer/extender.h: fprop, bprop", "nntl/dropout/dropout.h: _dropout_apply", "nntl/grad_works/grad_works.h: gw_init, pre_training_fprop, apply_grad"]}
{"id": "C101", "title": "A layer computes f(Wx+b), hands down zW and descends along the mean gradient, on any threads", "statement": "The forward pass of a fully connected layer writes f(Wx+b) for each sample and leaves the column of ones in place; weights and optimiser change only in training mode. The backward pass computes z from the activations, hands down z times the weights of before the update if the layer below asked for it, and gives the optimiser the mean over the batch of z times input. The same for the output layer with softmax or an element-wise activation, with z clamped to the given bounds. There is one outcome, no assertion fails, and every matrix has its size again.", "quantifier": "all numbers of inputs and neurons, batch sizes up to the announced one, activations, optimisers and settings, contents of matrices, thresholds, numbers of threads and interleavings", "why_tests_cant": "A wrong order of the calls, or a matrix left with the size of another one, shows only in some modes and sizes.", "anchors": ["nntl/layer/fully_connected.h: _lfc_fprop, _lfc_bprop", "nntl/layer/output.h: _outp_bprop", "nntl/layer/_activation_wrapper.h: _activation_fprop, _activation_bprop, _activation_bprop_output", "nntl/interface/math/smatrix.h: deform_like, deform_like_no_bias"]}
{"id": "C102", "title": "The gradient check answers true only if every layer has stood the required trials", "statement": "If gradcheck() answers true then for every layer that is not to be ignored as many different activations and weights as the settings require have been tried, each with the value decreased and increased on a batch of different rows of the data, no comparison with the derivative of the layers has failed, and the number of zeros is within the limit. If it answers false for data of fitting sizes, some layer has failed. Data of wrong sizes are refused with false and nothing is done.", "quantifier": "all networks of fully connected layers, packs, dropout, optional layers; all weights, data, settings, random numbers and shuffles, arithmetic of any kind", "why_tests_cant": "A counter that is not reset, an index that is skipped or a perturbation that lands in another layer makes the check answer true too often, which no test of correct layers notices.", "anchors": ["nntl/nnet.h: gradcheck, GradCheckFunctor, performCheck, _checkdLdA, _checkdLdW, _checkWeight, _checkErr", "nntl/interface/inspectors/gradcheck.h: fprop_makePreActivations, fprop_preactivations, fprop_activations, bprop_finaldLdA, bprop_dLdW", "nntl/utils/gradcheck.h: gradcheck_groupSetts, countToCheck", "nntl/utils/layer_idx_keeper.h"]}
{"id": "C103", "title": "The gradient check leaves the network as it was", "statement": "After gradcheck(), whatever its answer, weights, states of optimisers, mode, batch sizes and flags are what they were, learning is not blocked, and every training and evaluation that follows calculates what it would have calculated without the check.", "quantifier": "all networks, states, data, settings; all sequences of passes afterwards", "why_tests_cant": "The check runs training passes and changes weights in place: that all of them are restored depends on every path through the layers.", "anchors": ["nntl/nnet.h: gradcheck, GradCheckFunctor (constructor, destructor), _init", "nntl/interface/inspectors/gradcheck.h: gc_init, gc_deinit, gc_reset", "nntl/grad_works/grad_works.h: pre_training_fprop, apply_grad"]}
{"id": "C104", "title": "A trial is accepted if and only if the derivative is right", "statement": "As the step goes to zero, a trial of the gradient check accepts a derivative that is the derivative of the loss and rejects one that differs from it by more than the limits.", "quantifier": "all networks over the reals, weights, data, trials, limits; all sufficiently small steps", "why_tests_cant": "A statement about limits; which errors the check cannot see does not show in tests that pass.", "anchors": ["nntl/nnet.h: _checkErr, _checkWeight, _checkdLdA, _calcLossF", "nntl/interface/inspectors/gradcheck.h: get_analytical_value, get_real_batch_size"]}
{"id": "C105", "title": "The gradient check is defined for all data it accepts", "statement": "For data whose sizes gradcheck() accepts, the check has defined behaviour.", "quantifier": "all networks, numbers of rows, batch sizes, settings", "why_tests_cant": "The boundary case of data with exactly as many rows as the batch needs a combination of three sizes.", "anchors": ["nntl/nnet.h: gradcheck, performCheck, _prepNetToBatchSize", "nntl/utils/dataHolder.h: init, prepareToBatchSize, nextBatch", "nntl/utils/gradcheck.h: countToCheck"]}
{"id": "C106", "title": "Layers under a gate are trained on the samples they have seen", "statement": "In a training step of a network with an optional pack, the optimiser of a layer under the gate is given the derivative of the loss of the batch averaged over the samples that are open for this layer (the derivative of the mean loss of the whole batch times the size of the batch and divided by the number of open samples); a layer without open samples is left as it was, with its optimiser; the gate is left as it was; all other optimisers are given the derivative of the mean loss. The gradient handed to the layers below is the derivative, as long as the gate does not change.", "quantifier": "all optional packs with any layers (packs included) under the gate, gates, masks, weights, batches, directions in the space of all weights, histories of uses", "why_tests_cant": "A statement about derivatives for every pattern of open and closed samples; a wrong average is a constant factor that training absorbs.", "anchors": ["nntl/layer/pack_horizontal_optional.h: _lpho_fprop, _lpho_bprop", "nntl/layer/identity.h: _LIG", "nntl/layer/fully_connected.h: _lfc_bprop"]}
{"id": "C107", "title": "A parallel fill writes exactly its array, each thread from its own stream", "statement": "Every filling function of the multi-threaded random generator (uniform, normal, Bernoulli numbers) writes all n elements of the array it is given, each exactly once, and nothing else; the elements of the piece of thread t are consecutive numbers of the stream of thread t, the streams of threads without a piece do not move, and the result is the same under every interleaving of the threads. It does depend on the number of threads.", "quantifier": "all array lengths, numbers of threads, states of the streams, element generators (with local state), interleavings of the threads at the level of single elements", "why_tests_cant": "Races and off-by-one pieces show only under particular schedules, lengths and thread counts; a random array looks right to any test.", "anchors": ["nntl/interface/rng/afrand_mt.h: AFRand_mt, gen_vector, gen_vector_norm, gen_vector_gtz, bernoulli_vector, normal_vector", "nntl/interface/threads/workers.h: run, partition_count_to_workers"]}
{"id": "C108", "title": "Random numbers lie in the range the call promises", "statement": "gen_vector(a) gives numbers in [-a, a], gen_vector(neg, pos) in [neg, pos], the norm functions in [0, 1), gen_vector_gtz(a) in [0, a], integers of gen_vector_gtz(a) and gen_i(a) are in [0, a), Bernoulli vectors consist of the two values given; the arrays have the length asked for.", "quantifier": "all states of the generators, limits, lengths, numbers of threads, interleavings; for the symmetric range also all roundings that keep order, zero and the limits", "why_tests_cant": "A limit is reached with a probability of about 2^-24 or less per number, so an excess is not met by tests, while training draws more numbers than that.", "anchors": ["nntl/interface/rng/afrand_mt.h: gen_vector, gen_vector_gtz, gen_i", "nntl/interface/rng/afrand.h: AFRand", "nntl/interface/rng/cstd.h: CStd, gen_vector_gtz, gen_i"]}
{"id": "C109", "title": "A seed determines the numbers and separates the threads", "statement": "After seed(s) the streams of all threads are a function of s only, are pairwise different, and the same calls under the same number of threads give the same numbers, whatever happened before and however the threads are scheduled; reseed() starts over.", "quantifier": "all seeds, histories before the seed, sequences of calls after it, numbers of threads, interleavings", "why_tests_cant": "Reproducibility must hold after every history; correlated streams are not visible in single arrays.", "anchors": ["nntl/interface/rng/afrand_mt.h: AFRand_mt, seed, seed64, init_rng", "nntl/interface/_i_rng.h: s64to32"]}
{"id": "C110", "title": "Filling a matrix with random numbers keeps its biases", "statement": "gen_matrixAny and the gen_matrix_no_bias functions give every element that is no bias its random number, leave every bias equal to one and the rest of the storage untouched; gen_matrix writes every element.", "quantifier": "all matrices (sizes, both layouts, with and without biases), filling functions, states", "why_tests_cant": "The layouts differ in which cells are biases; tests use the default layout.", "anchors": ["nntl/interface/_i_rng.h: gen_matrixAny, gen_matrix_no_bias, gen_matrix_no_bias_norm, gen_matrix_no_bias_gtz, gen_matrix", "nntl/interface/rng/distr_normal_naive.h: gen_matrix_no_bias"]}
{"id": "C111", "title": "Normal vectors have the mean and the deviation asked for", "statement": "normal_vector(ptr, n, m, st) fills the array with m + st*z, where the z are standard normal deviates of the stream; uniform bits for the distributions of the standard library cover the unit interval.", "quantifier": "all lengths, means, deviations, states of the generators, numbers of bits drawn", "why_tests_cant": "A wrong deviation is a statistical effect that depends on the length of the vector.", "anchors": ["nntl/interface/_i_rng.h: rng_helper::normal_vector, min, max", "nntl/interface/rng/afrand_mt.h: normal_vector", "nntl/interface/rng/cstd.h: gen_int"]}
{"id": "C112", "title": "The spin lock serialises critical sections", "statement": "At most one thread is between lock() (or lock_yield()) and unlock() of a spin lock; data accessed only there change as if the sections had been executed one after the other; a free lock is taken by the next attempt. The lock is not fair.", "quantifier": "all numbers of threads, critical sections (any steps on local and shared data), interleavings of single steps", "why_tests_cant": "Interleavings are unbounded, and a lost update needs a particular one.", "anchors": ["nntl/interface/threads/_sync_primitives.h: spin_lock, lock_guard_yield, yieldable_lock"]}
{"id": "C113", "title": "A timed wait ends when the time is over", "statement": "wait_for(lock, t) and wait_for(lock, t, predicate) of a condition variable return at the latest when t is over; the first tells whether the time was over, the second returns the value of the predicate.", "quantifier": "all durations, histories of wake-ups and of values of the predicate", "why_tests_cant": "What counts is what happens when nothing happens: a test that does not return is not written.", "anchors": ["nntl/interface/threads/_sync_primitives.h: win_condition_var, wait_for, wait_for_shared, _to_ms"]}
{"id": "C114", "title": "Raised priorities are given back", "statement": "While a prioritize_workers object lives, the process, the main thread and the worker threads have the priorities of its mode; when it ends, or when a request to the operating system is refused during its construction, all priorities are as they were before. Nested objects work.", "quantifier": "all numbers of threads, modes, previous priorities, positions of a refused request", "why_tests_cant": "The operating system refuses requests rarely, at any of the points.", "anchors": ["nntl/interface/threads/prioritize_workers.h: prioritize_workers_win, Funcs::ChangeThreadsPriorities"]}
{"id": "C115", "title": "What is saved to a MATLAB file is loaded back", "statement": "If an object is saved to a MATLAB archive without an error and loaded from this file into an object of the same structure without an error, every number and every matrix (dimensions, elements, emulated biases) is what was saved; the other variables of the file are what they were. If no call of the library fails, saving succeeds.", "quantifier": "all objects (trees of named structs, numbers and matrices of any type and size with distinct names), former contents of the file, contents of new memory, results of library calls", "why_tests_cant": "Objects nest without bound and matrices have any size; tests need MATLAB's library.", "anchors": ["nntl/_supp/io/matfile.h: _matfile::operator<<, operator>>, _save_var, _load_var, _save_to_file_or_struct", "nntl/utils/matlab.h: type2id, fill_data_no_bias", "nntl/serialization/serialization.h: make_nvp, make_named_struct"]}
{"id": "C116", "title": "A matrix keeps its bias column in a MATLAB file", "statement": "A matrix that is saved and loaded keeps its shape, its elements and the fact whether it has emulated biases, whatever its name.", "quantifier": "all matrices, names", "why_tests_cant": "The behaviour depends on literal names in the loader.", "anchors": ["nntl/_supp/io/matfile.h: operator>>(smatrix&) (574: comparison with train_x, test_x)"]}
{"id": "C117", "title": "An error while saving is kept and leaves the file usable", "statement": "After an error an archive does nothing until it is reset; a save that fails leaves every variable of the file as it was before or as it was to be saved.", "quantifier": "all objects, positions of the failing library call, former contents of the file", "why_tests_cant": "The failing call may be any of them, at any depth.", "anchors": ["nntl/_supp/io/matfile.h: _matfile::operator<<, _set_last_error, named_struct"]}
{"id": "C118", "title": "Numbers of another type are converted when loaded", "statement": "A matrix loaded from a variable of another numeric class has the values of the variable converted to the type of the matrix; variables of other kinds, missing and empty ones and numbers of another class are refused, and what was to be loaded is not changed except for cleared matrices.", "quantifier": "all classes, matrices, values", "why_tests_cant": "There are as many combinations of classes as pairs, and values matter (negative ones).", "anchors": ["nntl/utils/matlab.h: fill_data_no_bias", "nntl/_supp/io/matfile.h: _load_var, operator>>"]}
{"id": "C119", "title": "Opening and closing of MATLAB archives", "statement": "An archive is opened only in a mode that fits its kind and only if no file is open; a deleting mode leaves an empty file, a keeping mode the former contents; close reports what was unfinished.", "quantifier": "all kinds, modes, states, contents of the disk, results of library calls", "why_tests_cant": "Library calls fail at any point.", "anchors": ["nntl/_supp/io/matfile.h: open, _open, close, FileOpenMode"]}
{"id": "C120", "title": "Structs begun and ended by hand are written as meant", "statement": "For every program of save_struct_begin, saving, save_struct_end: what is saved between beginning and end of a struct is in this struct; with bDontNest the struct is beside the current one; with bUpdateIfExist it keeps its former fields; calls that do not match are refused.", "quantifier": "all programs (any nesting of structs with any flags and objects), former contents of the file", "why_tests_cant": "Nesting is unbounded; flags combine with depth.", "anchors": ["nntl/_supp/io/matfile.h: _matfile_savingEx: save_struct_begin, save_struct_end, close"]}
{"id": "C121", "title": "A matrix is read from a JSON file as it is described there", "statement": "If the member train_x of the document is an array of columns of equal lengths (or one column) of numbers, reading yields this matrix, with biases if wanted, or reports that there is no memory; in every other case (no file, no JSON, no object, no member, anything else in it) an error is reported.", "quantifier": "all documents, sizes, element types, previous contents of the matrix, results of allocations", "why_tests_cant": "Documents and matrices are unbounded; malformed documents have errors at any position.", "anchors": ["nntl/_supp/io/jsonreader.h: read, _parse_json_doc, _parse_mtx, _parse_as_mtx, _parse_as_vector, _extract_value"]}
{"id": "C122", "title": "Train data are read from a JSON file completely or not at all", "statement": "If the members train_x, train_y, test_x, test_y describe matrices that fit together, reading yields train data with these matrices (samples with biases); in every other case an error is reported and the destination keeps its former data.", "quantifier": "all documents, sizes, element types, previous data, results of allocations", "why_tests_cant": "As C121; four members fail in any combination.", "anchors": ["nntl/_supp/io/jsonreader.h: _parse_json_doc(train_data)", "nntl/train_data/inmem_train_data_stor.h: absorb, absorbsion_will_succeed"]}
{"id": "C123", "title": "The error code of the JSON reader tells what is wrong", "statement": "NoX is reported if the member X is missing, InvalidX if it is there but does not describe a matrix, for the first such member; MismatchingDataLength if all are matrices that do not fit together; MemoryAllocationFailed only if an allocation failed.", "quantifier": "all documents", "why_tests_cant": "Documents are unbounded.", "anchors": ["nntl/_supp/io/jsonreader.h: _members2ErrorCode, _parse_mtx"]}
{"id": "C124", "title": "A successful resize comes with memory", "statement": "If resize of a matrix returns true, there is memory for all of its elements, also after an earlier resize has failed.", "quantifier": "all matrices, sizes, results of allocations", "why_tests_cant": "Allocations fail rarely.", "anchors": ["nntl/interface/math/smatrix.h: resize, _impl_resize, _realloc"]}
{"id": "C125", "title": "Stored train data always fit together", "statement": "Whatever sequence of absorb, replace_Y, assignment, clear, extract, transposeX and dupe is applied to the in-memory train data object, it has nothing stored, or as many labels as samples for training and testing, samples of one width, labels of one width, biases at the samples only.", "quantifier": "all sequences of operations and their arguments, sizes, results of allocations", "why_tests_cant": "Sequences and sizes are unbounded.", "anchors": ["nntl/train_data/inmem_train_data_stor.h: absorb, absorbsion_will_succeed, replace_Y, replace_Y_will_succeed, operator=, clear, extract, transposeX, dupe"]}
{"id": "C126", "title": "Train data come out of the in-memory object as they went in", "statement": "absorb accepts exactly matrices that fit together, stores them and leaves the arguments empty, or changes nothing; extract hands over what is stored and leaves nothing; assignment moves; replace_Y accepts exactly labels that fit the stored samples; dupe gives equal data, or false and an unchanged destination, false only for lack of memory.", "quantifier": "all stored data, arguments, sizes, results of allocations", "why_tests_cant": "Sizes and contents are unbounded; allocations fail rarely.", "anchors": ["nntl/train_data/inmem_train_data_stor.h: absorb, extract, operator=, replace_Y, dupe", "nntl/interface/math/smatrix.h: cloneFrom"]}
{"id": "C127", "title": "Transposing train data keeps every sample", "statement": "transpose, transposeX and transposeY change the layout only: the number of samples, their width, every feature of every sample and the biases are what they were, the other matrices do not change, and the data still fit together. Transposing twice gives the original matrix.", "quantifier": "all stored data, including matrices of one row or one column, layouts", "why_tests_cant": "Sizes and contents are unbounded.", "anchors": ["nntl/train_data/inmem_train_data_stor.h: transpose, transposeX, transposeY", "nntl/interface/math/mathn.h: s_mTranspose_ip, s_mTranspose_ip_BLAS", "nntl/interface/math/smatrix.h: on_transposition"]}
{"id": "C128", "title": "Scaling and offset of matrix elements", "statement": "evMulC_ip, evAddC_ip, evMulCAddC_ip change every element of the matrix, their _nb variants every element but the biases, into a*v, v+o, a*v+o; with the biases in the last column or, for samples in columns, in the last row. The shape, biases (_nb) and memory behind the matrix do not change, whatever the number of threads and their order.", "quantifier": "all matrices, layouts, numbers, numbers of threads, interleavings", "why_tests_cant": "Sizes and interleavings are unbounded; the result for every element matters.", "anchors": ["nntl/interface/math/mathn.h: evMulC_ip, evMulC_ip_nb, evAddC_ip, evAddC_ip_nb, evMulCAddC_ip, evMulCAddC_ip_nb"]}
{"id": "C129", "title": "Element-wise operations on two matrices", "statement": "evMul_ip, evAdd_ip, evSub_ip, evAddScaled_ip, evNZAddScaled_ip, evAddScaledSign_ip, evNZAddScaledSign_ip, evSign, evSquare, evAbs, evSub, evSubMtxMulC_ip_nb, evOneCompl, evClamp, apply_dropout_mask and the variants without biases combine exactly the elements of equal row and column, by the function their name tells, and change nothing else, whatever the number of threads and their order.", "quantifier": "all matrices, layouts, numbers, numbers of threads, interleavings", "why_tests_cant": "Sizes and interleavings are unbounded; a wrong element may be combined only in layouts no test has.", "anchors": ["nntl/interface/math/mathn.h: evMul_ip_Anb, evAdd_Anb_ip, evAddScaled_ip, evNZAddScaled_ip, evAddScaledSign_ip, evNZAddScaledSign_ip, evSign, evSquare, evAbs, evSubMtxMulC_ip_nb, evOneCompl, evClamp, apply_dropout_mask, evMul_ip, evAdd_ip, evSub_ip, evSub"]}
{"id": "C130", "title": "Binarization", "statement": "ewBinarize_ip puts one value for every element above the threshold and the other for every other element; biases and memory behind the matrix do not change.", "quantifier": "all matrices, thresholds, numbers of threads, interleavings", "why_tests_cant": "Sizes are unbounded; the order in which an expression is evaluated depends on the compiler.", "anchors": ["nntl/interface/math/mathn.h: ewBinarize_ip, _iewBinarize_ip_st"]}
{"id": "C131", "title": "OR of rows, counters of non-zeros, sum of products", "statement": "mrwOr in all its variants gives 1 for the rows of a binary matrix that contain a 1 and 0 for the others, with any threads in any order. vCountNonZeros and vCountNonZerosStrict give the number of elements that are not zero (the latter counts -0). ewSumProd gives the sum of the products of elements of the same place.", "quantifier": "all matrices and vectors, lengths, numbers of threads, interleavings", "why_tests_cant": "Sizes, lengths and interleavings are unbounded; a counter overflows only for huge vectors.", "anchors": ["nntl/interface/math/smath.h: mrwOr, mrwOr_st, mrwOr_mt, mrwBinaryOR, mrwBinaryOR_st_cw, mrwBinaryOR_mt_cw, ewSumProd", "nntl/interface/math/mathn.h: vCountNonZeros, vCountNonZerosStrict", "nntl/interface/math/smatrix.h: _isBinary"]}
{"id": "C132", "title": "Scaling of rows to a given norm", "statement": "mrwSetL2Norm multiplies every row by one positive number so that the sum of the squares of its elements, with or without the last column as asked, becomes the given value; nothing else changes, with any threads in any order.", "quantifier": "all matrices, norms, numbers of threads, interleavings, thresholds", "why_tests_cant": "Sizes and contents are unbounded; rows of zeros are rare.", "anchors": ["nntl/interface/math/mathn.h: mrwSetL2Norm, mrwSetL2Norm_st, mrwSetL2Norm_mt, mrwL2NormSquared", "nntl/interface/math/smath.h: mrwMulByVec"]}
{"id": "C133", "title": "Consumer of the circular buffer gets delivered values only", "statement": "Whatever the producers and the consumer of the circular buffer do, and even if more space was granted to producers than there is, the consumer never sees memory that no producer has filled: every value it reads was delivered, it reads inside of the buffer only, and this stays true while it holds a range and the producers go on.", "quantifier": "all capacities, numbers of producers, sizes of requests, histories", "why_tests_cant": "Histories are unbounded; uninitialised memory shows as plausible numbers.", "anchors": ["nntl/utils/data_buffer.h: DataBuffer::acquire_data, release_data, _as_should_work, _as_done; CircBufferFeeder::shrink"]}
{"id": "C134", "title": "Filling calls of the asynchronous generator", "statement": "Every filling call of AFRand_as (gen_vector with one and two bounds, gen_vector_norm, normal_vector) fills exactly the elements asked for with drawn numbers moved to the range of the call, be they taken from a buffer of the background threads or made at once, and touches nothing behind them. This holds for any history of announcements, initialisations with and without enough memory, seeds and calls, with any number of background threads that work meanwhile. A background thread stays inside of its own temporary memory.", "quantifier": "all histories of calls, numbers of threads, lengths, interleavings, results of allocations", "why_tests_cant": "Interleavings and histories are unbounded; wrong numbers look as random as right ones.", "anchors": ["nntl/interface/rng/afrand_as.h: _AFRand_as::gen_vector, gen_vector_norm, normal_vector; AsynchRng::_move_data, _apply_scaling, _as_normal_distr, _as_norm, _construct_rngs"]}
{"id": "C135", "title": "Numbers of the background threads are used once, in order", "statement": "The numbers the background threads make for a buffer are given to the filling calls in the order they were delivered, each of them once, none is lost; and a filling call takes its numbers from the buffer exactly if so many are unread there.", "quantifier": "all histories of calls, numbers of threads, interleavings", "why_tests_cant": "A number used twice or lost does not show in a sequence of random numbers.", "anchors": ["nntl/interface/rng/afrand_as.h: AsynchRng::_move_data, _as_normal_distr, _as_norm", "nntl/utils/data_buffer.h: DataBuffer"]}
{"id": "C136", "title": "init_rng of the asynchronous generator", "statement": "init_rng returns true exactly if the buffers for all announced numbers are there; then each kind of numbers has its own part of the memory, of the enlarged size, and its task runs. It can be called again after deinit_rng.", "quantifier": "all announcements, all results of allocations", "why_tests_cant": "Failing allocations are not tested.", "anchors": ["nntl/interface/rng/afrand_as.h: _AFRand_as::init_rng, deinit_rng, preinit_additive_normal_distr, preinit_additive_norm; AsynchRng::init_rng, deinit_rng, isInitialized"]}
{"id": "C137", "title": "Seeds of the asynchronous generator", "statement": "All streams of the object, those of the calling threads and those of the background threads, are seeded differently, at construction and by seed(). After seed(s) the results of the following calls depend on s and these calls only.", "quantifier": "all seeds, numbers of threads, histories", "why_tests_cant": "Depends on the moment the background threads get to work.", "anchors": ["nntl/interface/rng/afrand_as.h: _AFRand_as::seed; AsynchRng::seed, _construct_rngs"]}
{"id": "C138", "title": "Batches the network is ready for are accepted", "statement": "In every history of calls on a network object each forward pass is made for a batch that fits the activation matrices, with the layers told the size of exactly that batch. Once a call has promised readiness for batches of n rows (fprop of n rows, init4fixedBatchFprop, train), batches of up to n rows are accepted by fprop, doFixedBatchFprop and evaluations, without allocations or failures, until the network is deinitialised or told to reinitialise.", "quantifier": "all histories of fprop, init4fixedBatchFprop, prepare_to_doFixedBatchFprop, doFixedBatchFprop, evaluations, train, require_reinit, deinit; all sizes and outcomes of initialisations", "why_tests_cant": "Histories are unbounded.", "anchors": ["nntl/nnet.h: _init, _full_init, fprop, init4fixedBatchFprop, prepare_to_doFixedBatchFprop, doFixedBatchFprop, calcLossAndReport, train", "nntl/common_nn_data.h: set_mode_and_batch_size"]}
{"id": "C139", "title": "Inference is done in inference mode", "statement": "fprop, evaluations and doFixedBatchFprop run the layers in inference mode, whatever was called before.", "quantifier": "all histories of public calls", "why_tests_cant": "Histories are unbounded; a pass in training mode gives plausible results.", "anchors": ["nntl/nnet.h: fprop, _fprop, doFixedBatchFprop, prepare_to_doFixedBatchFprop, _set_mode_and_batch_size"]}
{"id": "C140", "title": "Evaluation between trainings keeps the state of training", "statement": "Calls made to evaluate the network between two trainings with the same batch sizes keep the layers initialised, so the second training goes on with the optimiser state of the first, and keep the temporary memory a training data object has asked for.", "quantifier": "all histories of public calls", "why_tests_cant": "Histories are unbounded; lost optimiser state only slows training down.", "anchors": ["nntl/nnet.h: _init, _init4train, fprop, init4fixedBatchFprop, deinit", "nntl/grad_works/grad_works.h: init"]}
{"id": "C141", "title": "get_last_error tells how the last call ended", "statement": "After any public call that returns an error code, get_last_error is the code returned; after a failure in a layer the index reported belongs to that failure.", "quantifier": "all histories and outcomes", "why_tests_cant": "Failures at all points of all histories.", "anchors": ["nntl/nnet.h: _set_last_error, get_last_error_string, fprop, init4fixedBatchFprop, train", "nntl/errors.h"]}
{"id": "C142", "title": "Batches of the training data object fit the network", "statement": "After init4fixedBatchFprop(td, bs) or train(td) has succeeded, every batch given by a walk over a set of td with the default batch size has at least one row and not more rows than the network is ready for.", "quantifier": "all data sets, sizes asked for, histories of both objects", "why_tests_cant": "Histories of two objects that keep sizes on their own.", "anchors": ["nntl/nnet.h: init4fixedBatchFprop, _init4train, calcLossAndReport", "nntl/train_data/_train_data_simple.h: is_initialized4inference, init4inference, init4train, walk_over_set, next_subset"]}
{"id": "C143", "title": "Settings of the optimiser are those asked for last", "statement": "After any sequence of calls on the optimiser of a layer (settings, initialisations, training steps, in any order) each setting has the value given by the last call of its own function, or its documented default: kind, learning rate, share of updated weights (zero means all), momentum and its kind, betas, gamma, stabiliser, bound of norms and whether it includes the bias, individual learning rates. Momentum, bound and individual rates are in use exactly if their values are positive.", "quantifier": "all sequences of calls, all values", "why_tests_cant": "Sequences are unbounded; settings are stored in flags and numbers changed by several functions.", "anchors": ["nntl/grad_works/grad_works.h: learning_rate, LRDropoutPercentActive, momentum, nesterov_momentum, beta1, beta2, gamma, numeric_stabilizer, set_type, max_norm, max_norm2, gw_init, apply_grad", "nntl/grad_works/ILR.h: set_ILR, clear_ILR, applyILRToMomentum"]}
{"id": "C144", "title": "Settings may be changed between training steps", "statement": "The run-time data of the optimiser can be made whatever settings are asked for, and after that training steps and changes of settings may follow in any order without failures (use of memory that is absent, too small or never written).", "quantifier": "all sequences of calls with legal arguments", "why_tests_cant": "Sequences are unbounded; memory is taken at initialisation for the settings of that moment.", "anchors": ["nntl/grad_works/grad_works.h: gw_init, pre_training_fprop, apply_grad", "nntl/grad_works/ILR.h: ILR_init, ILR_apply"]}
{"id": "C145", "title": "Optimiser state made anew starts from nothing", "statement": "After deinit and init the optimiser cannot be told from a new one that was given the same settings: nothing is left of former training, no setting is lost. Since the last init each step that learns is taken into the moments and the velocity exactly once.", "quantifier": "all sequences of calls before and after", "why_tests_cant": "Sequences are unbounded; stale state is not visible in results of one run.", "anchors": ["nntl/grad_works/grad_works.h: gw_init, gw_deinit, apply_grad"]}
{"id": "C146", "title": "Weights written to a file are the weights read from it", "statement": "If write_weights returns true for a network whose weights are initialised, then reading the file with read_weights into a network of the same architecture, whatever its weights, either returns false, which only happens if the MATLAB library or the allocator fails, or gives every layer, at any depth of packs, exactly the weights that were written: dimensions and every element.", "quantifier": "all networks (any nesting of packs, any sizes), all weights of the target, all failures of the library", "why_tests_cant": "Networks are unbounded trees; layers find their weights by names made of a given name and an index.", "anchors": ["nntl/nnet.h: write_weights, read_weights", "nntl/layers.h: serialize", "nntl/layer/fully_connected.h: save, load, set_weights", "nntl/layer/pack_tile.h, pack_vertical.h, _lph_base.h: serialize", "nntl/layer/_layer_base.h: get_layer_name_str"]}
{"id": "C147", "title": "Reading weights from an arbitrary file", "statement": "read_weights changes nothing but weights: whatever the file contains and whatever fails, names, numbers of neurons and nesting stay, every layer keeps its weights or gets weights of its own dimensions. If true is returned, every layer has got the weights that are in the file under its name; if false is returned, the network is as before.", "quantifier": "all files, all networks, all failures of the library", "why_tests_cant": "Files are arbitrary; a failure may happen at any call.", "anchors": ["nntl/nnet.h: read_weights", "nntl/layer/fully_connected.h: load, set_weights, isWeightsSuitable", "nntl/layer/pack_tile.h: serialize", "nntl/_supp/io/matfile.h: operator>>"]}
{"id": "C148", "title": "A transformer gets disjoint training samples in an epoch", "statement": "With a training data object that transforms its data on the fly, an epoch of batches of b base samples consists of floor(N/b) batches; each hands the transformer the numbers of exactly b base samples of the training set, all numbers of the epoch are pairwise distinct, and if b divides N every base sample is used exactly once. Every announced batch can be fetched.", "quantifier": "all transformers, set sizes, batch sizes, shuffles and histories of calls", "why_tests_cant": "All permutations, sizes and histories.", "anchors": ["nntl/train_data/transf_train_data.h: on_next_epoch, on_next_batch, init4train"]}
{"id": "C149", "title": "Walking over a set asks the transformer for every base sample", "statement": "walk_over_set followed by next_subset(0..n-1) asks the transformer for every base sample of the set exactly once, in order, never for one outside of the set, and the batch is normalised exactly once unless the features are excluded.", "quantifier": "all transformers, set sizes, batch sizes and histories of calls", "why_tests_cant": "The failing cases are residue classes and disagreements of two counts.", "anchors": ["nntl/train_data/transf_train_data.h: walk_over_set, next_subset"]}
{"id": "C150", "title": "Initialising a transforming data object", "statement": "A successful initialisation reports the requested sizes (zero or too much means everything) in whole base samples and is recognised by is_initialized4inference / is_initialized4train; an initialisation that reports an error leaves the object uninitialised; sets too big for a matrix are refused.", "quantifier": "all requests, set sizes, previous states, failures of memory and of the transformer", "why_tests_cant": "All combinations of requests and failures.", "anchors": ["nntl/train_data/transf_train_data.h: init4train, init4inference, _base_init_checks, is_initialized4train, is_initialized4inference"]}
{"id": "C151", "title": "Normalisation and the state of a transforming data object", "statement": "The normalisation of a transforming data object is changed by nothing but normalising and resetting it; normalising the data leaves the initialisation of the object as it was; the batch size of the settings follows the rules of the initialisation (too much means everything).", "quantifier": "all histories, settings, normalisers and failures", "why_tests_cant": "All histories.", "anchors": ["nntl/train_data/transf_train_data.h: normalize_data, reset_normalization, _fix_trainX_whole", "nntl/train_data/_td_base.h: normalize_data", "nntl/train_data/_td_norm.h: normalize_data_whole, normalize_data_cw"]}
{"id": "C152", "title": "Sequences for classification survive the file", "statement": "If a set of sequences (matrices, each belonging to a class) is written to a binary file, with the classes mixed in any order, reading the file into a clear seq_data object succeeds and gives every class exactly its sequences, in the order of the file, with every element (converted if the element types differ). A file that was cut off anywhere is not read successfully, whatever else happens.", "quantifier": "all numbers of classes and sequences the format can hold, all orders, all matrices, all cut points, all behaviours of the environment", "why_tests_cant": "All files and all interleavings of classes; every cut point with every failure of the environment.", "anchors": ["nntl/_supp/io/binfile.h: binfile::read, _read_into(seq_data)", "nntl/train_data/seq_data.h: seq_data::_prealloc_classes, _next_mtx_for_class, empty"]}
{"id": "C153", "title": "Reading sequences from arbitrary files", "statement": "Whatever a file contains, reading it into a seq_data object returns; a malformed header, a count of zero, a name without a class and a sequence too many are rejected with the error that says so; after success every class has exactly the announced number of sequences, at least one, none of them empty; an object that is not clear is never read into and keeps its contents; after a failure the object is as it was.", "quantifier": "all byte strings, all destinations, all behaviours of the environment", "why_tests_cant": "All byte strings; failures of memory at every point.", "anchors": ["nntl/_supp/io/binfile.h: binfile::read, _read_into(seq_data)", "nntl/train_data/seq_data.h: seq_data::_prealloc_classes, is_clear, clear, empty"]}
{"id": "C154", "title": "The dumper writes exactly the files that were asked for", "statement": "During a training the dumper inspector writes one file for each direction of each wanted batch and one for each wanted calculation of the error, named after the epoch, the batch and the direction, with the contents of that pass, and no other file is touched; different passes never share a file; afterwards no file is open.", "quantifier": "all networks, all settings of every condition class, all lists of allowed or forbidden layers, all numbers of epochs and batches, all schedules of error calculations, all moments between them at which the user turns the inspector on or off", "why_tests_cant": "All schedules and settings; a test sees a few files of one training.", "anchors": ["nntl/interface/inspectors/dumper.h: conds::*, dumper, _dumper_base", "nntl/utils/vector_conditions.h", "nntl/utils/layer_idx_keeper.h"]}
{"id": "C155", "title": "Contents of a dumped file", "statement": "A dumped file has one struct for every layer that was at work in the pass and may be written, at any depth of nesting, with the layer's name and with what this layer (not its inner layers) reported, and none for any other layer; this holds in every training.", "quantifier": "all passes with layers nested to any depth, all reports, all black and white lists, all trainings", "why_tests_cant": "All nestings and all orders of reports.", "anchors": ["nntl/interface/inspectors/dumper.h: _dumper, fprop_begin, fprop_end, bprop_begin, bprop_end, inspect, init_layer", "nntl/utils/bwlist.h", "nntl/nnet.h: nnet::train"]}
{"id": "C156", "title": "The dumper does not disturb when it is off, and its limits", "statement": "While the inspector is turned off no call to it changes any file; turning it off and on at any moment is safe; every accepted directory name can be used.", "quantifier": "all sequences of calls, all moments, all names", "why_tests_cant": "All sequences of calls.", "anchors": ["nntl/interface/inspectors/dumper.h: turn_on, turn_off, bDoDump, set_dir_to_dump, _make_file_name, _open_archive"]}
{"id": "C157", "title": "What the file of a saved network contains", "statement": "When a network is saved with an archive (ar & nnet) and every call answers success, the file contains a struct for each layer, nested as the layers are, and in each exactly the variables that the options ask for, with the values the layer has; this does not depend on the earlier contents of the file; saving fails only if the library or the allocator does.", "quantifier": "all networks of input, identity, gate, fully connected, output layers, packs and tiles nested to any depth, with or without dropout, alpha-dropout and individual learning rates, all optimisers, all 2^7 settings of the options, all environments", "why_tests_cant": "All networks, all option settings; a test sees one network with the default options.", "anchors": ["nntl/nnet.h: nnet::serialize", "nntl/layers.h: layers::serialize", "nntl/layer/fully_connected.h: save", "nntl/layer/output.h: save", "nntl/grad_works/grad_works.h: serialize", "nntl/grad_works/ILR.h: ILR_serialize", "nntl/dropout/dropout.h, alpha_dropout.h: _dropout_serialize", "nntl/serialization/options.h"]}
{"id": "C158", "title": "A saved network is restored by loading it", "statement": "A network that was saved with some options and is loaded with some options into a network of the same architecture has afterwards, in every layer, what these options cover as it was saved, and everything else as it was; loading fails only if something that is asked for was not saved, does not fit, or the library or the allocator fails.", "quantifier": "all networks as for C157, all pairs of option settings, all states of the network that is loaded into", "why_tests_cant": "All pairs of option settings and all networks; training resumed from a file looks plausible in a test.", "anchors": ["nntl/layer/fully_connected.h: load, set_weights", "nntl/layer/output.h: load", "nntl/layer/extender.h: serialize", "nntl/dropout/alpha_dropout.h: _dropout_serialize", "nntl/_supp/io/matfile.h: imatfile"]}
{"id": "C159", "title": "Loading an arbitrary file changes only what the options cover", "statement": "Whatever file a network is loaded from, and whatever fails meanwhile, nothing changes but what the options cover: the structure of the network, the sizes of layers, optimisers, data of the input layer; weights are those before or weights of the layer's dimensions.", "quantifier": "all files (any variables of any type and size, at any depth), all environments, all networks, all options", "why_tests_cant": "All files.", "anchors": ["nntl/layer/fully_connected.h: load", "nntl/layer/pack_tile.h: serialize", "nntl/layer/identity.h: serialize", "nntl/_supp/io/matfile.h: imatfile"]}
{"id": "C160", "title": "Checks of the contents of a matrix answer correctly", "statement": "_isBinary answers yes exactly if every element is the number zero (of either sign) or one, _isBinaryStrict if every element is one or zero without a sign, _isBinaryStrictNoBias the same of the elements that are not biases, _isAlmostBinary(eps) if every element is a number nearer than eps to zero or one, test_noNaNs if no element is a NaN; otherwise they answer no, or end the program if assertions are compiled in and were not silenced. They read nothing outside the matrix.", "quantifier": "all matrices of float, double or integral elements with storage, all bit patterns, with and without biases, with and without assertions; all eps up to 1/2 and every monotonous rounding", "why_tests_cant": "2^32 (2^64) patterns for every element: subnormal numbers, negative zeros, infinities, NaNs of either sign; the checks compare bits, the claim is about numbers.", "anchors": ["nntl/interface/math/smatrix.h: _isBinaryVec, _isBinaryStrictVec, _isBinary, _isBinaryStrict, _isBinaryStrictNoBias, _isAlmostBinary, test_noNaNs", "nntl/interface/math/_base.h: similar_FWI_one, similar_FWI_pos_zero, similar_FWI_neg_zero"]}
{"id": "C161", "title": "Checks of biases answer correctly", "statement": "test_biases_ok answers yes exactly if the biases of the matrix are what its flag says: all ones, or with the flag of holey biases all of them zeros and ones; otherwise it answers no or ends the program where assertions are compiled in; test_biases_strict and if_biases_test_strict likewise. They end, and read nothing outside the storage.", "quantifier": "all matrices with biases and storage, both layouts, flag set or not, all bit patterns, with and without assertions", "why_tests_cant": "All sizes: the check of holey biases in the layout with samples in columns happens to end for some ratios of the dimensions.", "anchors": ["nntl/interface/math/smatrix.h: test_biases_ok, test_biases_strict, test_biases_holey, if_biases_test_strict, _isBinaryVecWLd"]}
{"id": "C162", "title": "The flag of biases tells the truth", "statement": "After any sequence of writes of data, zeros, ones, set_biases, fill_from_array_no_bias, copy_biases_from, copying of matrices, resize and nans_no_bias, a matrix without the flag of holey biases has only ones as biases, one with it zeros and ones; copy_biases_from makes every bias that of the same row of the source and changes nothing else.", "quantifier": "all sequences of operations, all matrices, both layouts, all contents", "why_tests_cant": "All sequences of operations; a matrix whose flag is wrong gives wrong gradients only for the affected rows.", "anchors": ["nntl/interface/math/smatrix.h: copy_biases_from, holey_biases, nans, nans_no_bias, set_biases, zeros, ones, copy_to, resize, fill_from_array_no_bias"]}
{"id": "C163", "title": "A matrix in the storage of another one shows the elements asked for and no bias", "statement": "The matrix that submatrix_cols_no_bias(c, n) or useExternalStorage_no_bias(m, c, n) gives shows the columns c..c+n-1 of the other one: reading element (r, i) reads (r, c+i), writing it changes that element and no other, and none of them is a bias, so that no sequence of writes changes a bias; useExternalStorage(_no_bias)(m) likewise for all columns (of data). The layout is handed on.", "quantifier": "all matrices, both layouts, with and without biases, all admissible c and n, all sequences of writes", "why_tests_cant": "All shapes, layouts and sequences of writes.", "anchors": ["nntl/interface/math/smatrix.h: smatrix::submatrix_cols_no_bias, smatrix_deform::submatrix_cols_no_bias, useExternalStorage, useExternalStorage_no_bias"]}
{"id": "C164", "title": "The check of orthogonality answers correctly", "statement": "_mIsOrthogonal(A, bFirstTransposed, eps) answers yes exactly if the columns of A (the rows if bFirstTransposed is false) are orthonormal within eps: every product of two different ones is at most eps, every product of one with itself at most eps away from one. It reads nothing outside the matrix and does not depend on the contents of the memory it allocates.", "quantifier": "all matrices over exact arithmetic, both settings, all eps, all contents of fresh memory", "why_tests_cant": "All matrices and dimensions; the check guards the initialisation of weights and is only compiled into debug versions.", "anchors": ["nntl/interface/math/mathn.h: _mIsOrthogonal"]}
{"id": "C165", "title": "Objects given to a network stay the user's, objects it makes are destroyed with it, once", "statement": "A network works with the mathematics, generator and inspector that are passed to its constructor and makes one object of each kind that is not passed. At every moment of every program an object lives exactly as long as the program has not destroyed it and the network that made it (if one did) lives. A living network can always be destroyed; nothing is destroyed twice.", "quantifier": "all programs that construct, run, deinitialise and destroy any number of networks, generators, mathematics, inspectors and layers, in any order; with and without assertions", "why_tests_cant": "All orders of construction and destruction of several networks that share objects.", "anchors": ["nntl/common_nn_data.h: interfaces_keeper", "nntl/nnet.h: nnet, make_nnet"]}
{"id": "C166", "title": "A careful program never meets a destroyed object", "statement": "If a program gives networks only living objects, initialises or deinitialises a network only while no other initialised network has its layers or mathematics, and destroys nothing that living networks use (the pool of threads their generators are attached to included), then no call touches a destroyed object, fails an assertion about these pointers or lacks temporary memory, and layers always work with the data of the network that is run.", "quantifier": "all programs over any number of objects and networks that observe the rules, with and without assertions", "why_tests_cant": "All interleavings of the lifetimes of networks that share layers, mathematics or generators; use after free rarely shows in tests.", "anchors": ["nntl/common_nn_data.h: interfaces_keeper, _common_data_consumer::set_common_data", "nntl/nnet.h: _init, _full_init, deinit", "nntl/interface/math/smath.h: preinit, init, deinit, _istor_alloc", "nntl/interface/rng/afrand_mt.h: init_ithreads", "nntl/layers.h: deinit_layers"]}
{"id": "C167", "title": "Layers outlive their network and can be given to the next one", "statement": "After any careful program, layers that no living network has can be given to a new network: it is made, runs with its own data (also again with larger batches) and is destroyed; the pointers to data of destroyed networks that the layers hold are never followed.", "quantifier": "all careful programs before, all layers that no living network has, generators with and without threads, with and without assertions", "why_tests_cant": "All histories of the layers.", "anchors": ["nntl/nnet.h: _init, deinit, ~nnet", "nntl/layers.h: deinit_layers", "nntl/layer/_layer_base.h: layer_init, layer_deinit"]}
{"id": "C168", "title": "A callable handle is a value: empty, a functor of its own, or a reference to somebody's", "statement": "utils::cmcforwarder and utils::forwarder, with and without the wrapping policies of the thread pools, behave as values: assigning, copying, swapping, resetting, testing and calling them gives the same results, and is undefined or refused by the compiler at the same operation, as for a plain variable that is empty, holds a functor or refers to one. What the policy keeps by value always fits into the storage.", "quantifier": "all programs over any number of handles and functor objects of any types, all template arguments N, storage alignments and pointer sizes", "why_tests_cant": "All histories of assignments of functors of different types into one raw storage.", "anchors": ["nntl/utils/forwarder.h: cmcforwarder, forwarder, cmcforwarderWrap, forwarderWrap, _forwarder_store", "nntl/utils/call_wrappers.h: forwarderWrapper, cmcforwarderWrapper"]}
{"id": "C169", "title": "A small functor in a handle is an independent copy", "statement": "Once a functor of at most N bytes is in a handle, whatever happens to the original (calls, end of life, reuse of its address) and to other handles, calls of the handle are defined and give what a functor gives that started as the original was and got exactly the calls of this handle; these calls change no functor of the user and no other handle, and leaving them out changes nothing else.", "quantifier": "all worlds, functors that are kept by value, programs that do not put something else into the handle, arguments", "why_tests_cant": "All histories between putting the functor in and calling it.", "anchors": ["nntl/utils/forwarder.h: cmcforwarder::assign, operator(), cmcforwarderWrap::wrap, forwarderWrap::wrap"]}
{"id": "C170", "title": "A functor that is not small is called through a reference", "statement": "A functor larger than N bytes (for forwarder also one that is not trivially copyable) given to a handle through the policy stays the user's: a call of the handle is a call of that object with its state at that moment, as long as the object lives; after its end a call is undefined.", "quantifier": "all worlds, functors that are kept by reference, programs that do not put something else into the handle, arguments", "why_tests_cant": "All histories; a dangling reference rarely shows in tests.", "anchors": ["nntl/utils/forwarder.h: cmcforwarderWrap::wrap, forwarderWrap::wrap, cmcforwarder::operator()"]}
{"id": "C171", "title": "A background task that was accepted can be run as long as it is listed", "statement": "A functor given to add_task of the background threads can be called until the task is deleted.", "quantifier": "all functors, value categories and histories after add_task", "why_tests_cant": "All histories between adding and running a task.", "anchors": ["nntl/interface/threads/bgworkers.h: BgWorkers::add_task", "nntl/utils/forwarder.h: cmcforwarderWrap::wrap"]}
{"id": "C172", "title": "run() and reduce() of the thread pool call the functor of the user", "statement": "Every call made by run()/reduce() is a call of the functor the user passed, so the state of the functor afterwards accounts for all calls.", "quantifier": "all functors, sizes, and orders of the calls of the calling thread and the workers", "why_tests_cant": "All schedules of the workers; the outcome depends on sizeof of the functor.", "anchors": ["nntl/interface/threads/workers.h: Workers::run, _run, reduce, _reduce, _worker", "nntl/utils/forwarder.h: cmcforwarderWrap::wrap"]}
{"id": "C173", "title": "Settings of regularisers are those asked for last", "statement": "For a layer with any tuple of loss addendums, after any sequence of calls that set a scale or the treatment of bias weights (by index, by type, or by L1(..)/L2(..)), each addendum has the scale and the treatment the last call naming it asked for, by default scale 0 and biases left out, independently of the others; calls that name members of the tuple are accepted in any order; hasLossAddendum() is true exactly if some scale is not zero.", "quantifier": "all tuples of addendum classes, all call sequences", "why_tests_cant": "All histories of calls on all tuples.", "anchors": ["nntl/grad_works/loss_addendums.h: addendum, addendumIgnoresBias, hasLossAddendum, L1, L2, _la_construct", "nntl/loss_addendum/_i_loss_addendum.h: scaled_addendum", "nntl/utils/tuple_utils.h: tuple_element_idx_safe"]}
{"id": "C174", "title": "Value and gradient of regularisers for any tuple of addendums", "statement": "lossAddendum() of the weights is the sum, over all addendums of the tuple, of the scale times what the class computes of the weights (with or without the bias weights, as asked for); applying the addendums to the gradient appends the multiples of their derivative terms in the order of the tuple, without the biases where asked for; weights, sizes and flags are restored and memory behind the matrices is untouched.", "quantifier": "all tuples of distinct addendum classes computing arbitrary functions, all call sequences before, all matrices", "why_tests_cant": "All tuples, settings and matrices; tests use L1 and L2.", "anchors": ["nntl/grad_works/loss_addendums.h: lossAddendum, _applyLossAddendums", "nntl/interface/math/smatrix.h: hide_last_col, restore_last_col"]}
{"id": "C175", "title": "Memory of addendums: all or nothing", "statement": "Initialising a layer with penalties on its activations succeeds exactly if every allocation its addendums need succeeds; after a failure, and after deinitialisation, no addendum holds memory; after a success every addendum calculated in the forward pass has room for the biggest batch; settings are not changed by any of these.", "quantifier": "all tuples of addendums, sizes and outcomes of allocations", "why_tests_cant": "All combinations of failing allocations.", "anchors": ["nntl/layer/_penalized_activations_base.h: _pab_init, _pab_deinit", "nntl/layer/extender.h: layer_init, layer_deinit", "nntl/loss_addendum/_i_loss_addendum.h: scaled_addendum_with_mtx4fprop::init, deinit"]}
{"id": "C176", "title": "Penalties may be switched between batches of any size", "statement": "After any sequence of training batches of any sizes and of settings of scales, a batch goes through the layer without a failure and the gradient gets the terms of the penalties that are switched on, calculated of the activations of this batch, in the order of the tuple; neurons of a gate get none; the reported penalty is that of the same neurons; an addendum for non-zero gradients only never changes a zero element.", "quantifier": "all tuples of addendums, histories of batches and settings, gates, matrices", "why_tests_cant": "All histories of sizes and settings; stale memory shows only after particular histories.", "anchors": ["nntl/layer/_penalized_activations_base.h: _pab_fprop, _pab_update_dLdA, _pab_lossAddendum", "nntl/layer/extender.h: _fprop4PA, _update_dLdA4PA, lossAddendum", "nntl/loss_addendum/L1.h", "nntl/loss_addendum/L2.h", "nntl/loss_addendum/_i_loss_addendum.h: _appendGradient"]}
{"id": "C177", "title": "The line of an epoch shows the numbers of that epoch and is always printed", "statement": "After each reported epoch the standard observers print one line that shows the number of epochs done and asked for, the time in seconds, the losses, and the shares and numbers of wrong answers of the training and test sets, rounded to nearest in the last digit; whatever the numbers are, the line is printed and the training goes on or ends with NNDiverged as the divergence check decides.", "quantifier": "all epochs, times, losses (finite or not), counts of answers; both observers; further data sets", "why_tests_cant": "The line is as long as its numbers: all magnitudes of losses have to be considered, and losses of a diverging training are those no test produces.", "anchors": ["nntl/interface/training_observer.h: training_observer_stdcout::on_training_fragment_end, report_results_end, training_observer_simple_stdcout::on_training_fragment_end", "nntl/nnet.h: train"]}
{"id": "C178", "title": "Introductions, reports of time, names of data sets and messages always fit", "statement": "The introduction printed when a training starts, the reports of time, the default names of data sets and the messages of the numeric check of derivatives fit their buffers for all numbers of their types, and show these numbers.", "quantifier": "all integers of 32 or 64 bits; fewer than 10^14 epochs; times of 64 bits; texts of %g", "why_tests_cant": "All magnitudes of numbers; a buffer one character short shows only for the longest ones.", "anchors": ["nntl/interface/training_observer.h: on_training_start", "nntl/nnet.h: train, _checkErr", "nntl/train_data/_td_base.h: get_dataset_naming_function"]}
{"id": "C179", "title": "Names of layers and identifiers of their types tell them apart", "statement": "The printed name of a layer is its custom or default name, an underscore and its index; it fits its buffer if the custom name has fewer than 40 characters, and layers of a network with different indices or names have different printed names. The numeric identifier of a type of layers is different for different default names of up to 8 ASCII characters, and longer names do not compile.", "quantifier": "all names, all indices of 16 bits", "why_tests_cant": "All names; collisions show only for particular pairs.", "anchors": ["nntl/layer/_layer_base.h: set_custom_name, get_layer_name, get_layer_name_str, get_layer_type_id"]}
{"id": "C180", "title": "Timers hold the first, the best and the sum of the durations measured", "statement": "After any sequence of measurements and resets a timer holds the number, the sum, the first and the smallest of the durations measured since the last reset, and prints the first, the best and the mean, or that it was never run.", "quantifier": "all sequences of tic, toc, store and reset, all times", "why_tests_cant": "All histories.", "anchors": ["nntl/utils/tictoc.h: tictoc"]}
{"id": "C181", "title": "Durations are printed with the right unit", "statement": "The text of a duration, divided by a number of repetitions, shows that duration: the number printed times the unit printed is the duration, up to the last digit.", "quantifier": "all durations in nanoseconds, microseconds, milliseconds and seconds, all numbers of repetitions", "why_tests_cant": "All magnitudes of durations in all units.", "anchors": ["nntl/utils/chrono.h: duration_readable"]}
{"id": "C182", "title": "Batch sizes keep what they are made of and survive tiling", "statement": "Batch sizes (the biggest batch, the biggest for training) can be made exactly if they make sense, and the queries give them back; multiplying them by the number of tiles and dividing by it gives the same sizes; division divides both sizes.", "quantifier": "all sizes of 31 bits, all factors", "why_tests_cant": "All sizes; rounding shows only for particular ones.", "anchors": ["nntl/common.h: BatchSizes", "nntl/layer/pack_tile.h: layer_init"]}
{"id": "C183", "title": "Loops over tuples visit each element once, in order", "statement": "The loops over tuples of layers or addendums call the functor exactly once for each element (but the first, but the last), in the order of the tuple or backwards; the loop with the previous element passes neighbours and marks the first pair only.", "quantifier": "all tuples and functors", "why_tests_cant": "All lengths of tuples, any functor with any state.", "anchors": ["nntl/utils/tuple_utils.h: for_each_up, for_each_exc_last_up, for_each_exc_first_up, for_each_down, for_each_exc_first_down, for_eachwp_up"]}
{"id": "C184", "title": "Denormalized numbers are off in a training, and the check tells so", "statement": "In a training denormalized numbers are off in the calling thread and in all threads of the pool, whatever their modes were before; the check over all threads is true exactly if one of them uses denormalized numbers, in whatever order they run; switching leaves the rounding mode alone, and code called in a scope with the usual rounding gets it.", "quantifier": "all modes of all threads, all histories, pools of all sizes, all schedules", "why_tests_cant": "All schedules and histories of modes; modes belong to threads and are not visible in a result.", "anchors": ["nntl/utils/denormal_floats.h", "nntl/interface/threads/workers.h: denormalsOnInAnyThread, _s_worker", "nntl/nnet.h: train", "nntl/math.h: _scoped_restore_FPU"]}
{"id": "C185", "title": "Binary answers are judged by the threshold in force", "statement": "A report of binary classification judges the truth and the answers of the network by the threshold that is in force, for all data sets and after any history of setting the threshold, preparing and releasing the evaluator.", "quantifier": "all histories of set_threshold, init and deinit, all data sets, batches, thresholds and pools", "why_tests_cant": "All histories: the labels are prepared once and used by all later reports.", "anchors": ["nntl/nnet_evaluator.h: eval_classification_binary_cached"]}
{"id": "C186", "title": "Counting equal elements", "statement": "The counters of equal elements give the number of positions with equal elements, for vectors beginning at an offset, by one thread or by several, and for a batch of rows compared with a part of a bigger matrix.", "quantifier": "all vectors, matrices, offsets, pools", "why_tests_cant": "All sizes, offsets and pools.", "anchors": ["nntl/interface/math/mathn.h: vCountSame_st_naive, vCountSame_mt_naive, vCountSameBatch_st_naive"]}
{"id": "C187", "title": "The answer to a sample depends on the sample and the weights only", "statement": "In exact arithmetic, a network of fully connected layers in nested vertical, horizontal and tile packs answers to every row of a batch with the composition of its layers, a function of that row and of the present weights. Other rows, the size of the batch, the mode and the history do not matter, and evaluation leaves the weights as they are.", "quantifier": "all trees of layers that initialisation accepts (without optional packs), all weights, batches, modes and histories of evaluation and training", "why_tests_cant": "It ranges over all networks, batches and histories.", "anchors": ["nntl/layers.h: layers::fprop, layers::bprop", "nntl/layer/fully_connected.h: _LFC", "nntl/layer/output.h: _layer_output", "nntl/layer/pack_vertical.h", "nntl/layer/pack_horizontal.h", "nntl/layer/pack_tile.h", "nntl/grad_works/grad_works.h: pre_training_fprop, apply_grad"]}
{"id": "C188", "title": "A training step is a step of gradient descent on the mean loss of the batch", "statement": "In exact arithmetic and with the plain optimiser, one training step after any history moves every weight of such a network by minus its learning rate times the partial derivative of the mean loss of the batch, as a function of all weights, taken at the weights before the step; in a tile pack the derivative is divided by the number of tiles. The derivatives exist.", "quantifier": "all such networks, elementwise losses and softmax with cross entropy, all batches, weights, learning rates and histories", "why_tests_cant": "It ranges over all networks, weights, batches and histories; derivatives cannot be observed by tests.", "anchors": ["nntl/layers.h: layers::fprop, layers::bprop", "nntl/layer/fully_connected.h: _LFC", "nntl/layer/output.h: _layer_output", "nntl/layer/pack_vertical.h", "nntl/layer/pack_horizontal.h", "nntl/layer/pack_tile.h", "nntl/grad_works/grad_works.h: pre_training_fprop, apply_grad"]}
{"id": "C189", "title": "Training is gradient descent over the batches", "statement": "In exact arithmetic and with the plain optimiser, the weights after any history of uses are those that gradient descent reaches from the first weights over the batches of the training steps, in their order. Evaluations in between make no difference, and two networks of the same layers with the same first weights and training batches have the same weights and give the same answers at the end, whatever their biggest batch sizes and other uses were.", "quantifier": "all histories of evaluation and training, all such networks, all pairs of histories with the same training batches", "why_tests_cant": "It ranges over all histories.", "anchors": ["nntl/layers.h: layers::fprop, layers::bprop", "nntl/layer/fully_connected.h: _LFC", "nntl/layer/output.h: _layer_output", "nntl/layer/pack_vertical.h", "nntl/layer/pack_horizontal.h", "nntl/layer/pack_tile.h", "nntl/grad_works/grad_works.h: pre_training_fprop, apply_grad"]}
{"id": "C190", "title": "Small learning rates lower the loss of the batch", "statement": "In exact arithmetic and with the plain optimiser, a training step with small enough learning rates lowers the mean loss of the batch it is made with, unless all partial derivatives with respect to trained weights are 0. The derivative with respect to the bias of an output neuron is the mean over the batch of the derivative of the loss with respect to that neuron.", "quantifier": "all such networks, weights, batches and directions of learning rates", "why_tests_cant": "It ranges over all networks, weights and batches, and there is no one bound for the learning rates.", "anchors": ["nntl/layers.h: layers::fprop, layers::bprop", "nntl/layer/fully_connected.h: _LFC", "nntl/layer/output.h: _layer_output", "nntl/layer/pack_vertical.h", "nntl/layer/pack_horizontal.h", "nntl/layer/pack_tile.h", "nntl/grad_works/grad_works.h: pre_training_fprop, apply_grad"]}
{"id": "C191", "title": "train() is mini-batch gradient descent over shuffled epochs", "statement": "In exact arithmetic and with the plain optimiser, a call of train() that starts leaves the network with the weights that gradient descent reaches from the first weights, over the batches of one epoch after the other. For every epoch that was begun there is an order of the training samples; its batches are consecutive groups of that order, all of the batch size of the training; no sample is used twice in an epoch, and all samples are used if the batch size divides their number. Reports and callbacks that evaluate the network with other batch sizes or walk over the data make no difference, and neither does the way the training ends. If it ends with success and no callback stops it, there are as many epochs as were asked for.", "quantifier": "all networks of fully connected layers in nested packs, training data, options, batch sizes, numbers of epochs, shuffles, schedules of worker threads that copy samples, and all evaluations made by reports and callbacks", "why_tests_cant": "It ranges over all networks, data, shuffles, schedules and whole trainings.", "anchors": ["nntl/nnet.h: nnet::train", "nntl/train_data/_train_data_simple.h: on_next_epoch, on_next_batch", "nntl/layers.h: layers::fprop, layers::bprop", "nntl/layer/fully_connected.h: _LFC", "nntl/layer/output.h: _layer_output", "nntl/grad_works/grad_works.h: apply_grad"]}
{"id": "C192", "title": "With any optimisers, each optimiser gets exactly the partial derivatives of the mean loss", "statement": "Whatever the optimisers of the layers are, in exact arithmetic: before a forward pass in training every optimiser may move its own weights, and nothing else moves them; after it, every optimiser of a trained layer is given exactly once the partial derivatives of the mean loss of the batch with respect to its weights (divided by the number of tiles inside of tile packs), taken at the weights where the optimisers have just put them, and what it makes of them are the new weights. Evaluation changes neither weights nor states of optimisers. What the network answers is the function of the sample and these weights. Over any history, weights and states of optimisers are those that the optimisers reach, batch after batch; evaluations make no difference.", "quantifier": "all networks of fully connected layers in nested packs, all optimisers (any states and functions), weights, batches and histories of training steps and evaluations", "why_tests_cant": "It ranges over all networks, optimisers and histories.", "anchors": ["nntl/layers.h: layers::fprop, layers::bprop", "nntl/layer/fully_connected.h: _LFC", "nntl/layer/output.h: _layer_output", "nntl/layer/pack_vertical.h", "nntl/layer/pack_horizontal.h", "nntl/layer/pack_tile.h", "nntl/grad_works/grad_works.h: pre_training_fprop, apply_grad"]}
{"id": "C193", "title": "Momentum, Nesterov momentum, Adam and RMSProp do what the textbooks say, for whole networks", "statement": "In exact arithmetic and without gains, norm limits and dropout of learning rates: a network whose layers use momentum, Nesterov momentum, Adam or RMSProp (Hinton) is trained as the formulas of these methods say, weight by weight, with the partial derivatives of the mean loss of each batch: momentum adds to the velocity; Nesterov momentum takes the derivatives where the velocity would bring the weights; Adam corrects its two means by the number of steps; RMSProp begins with a plain step. Penalties L1 and L2 add their derivatives, for biases only if they do not ignore them. Learning rates, momenta and penalties may change from step to step.", "quantifier": "all networks of fully connected layers in nested packs, all settings and their changes, weights, batches and histories of training steps and evaluations", "why_tests_cant": "It ranges over all networks, settings and histories.", "anchors": ["nntl/layers.h: layers::fprop, layers::bprop", "nntl/layer/fully_connected.h: _LFC", "nntl/layer/output.h: _layer_output", "nntl/layer/pack_vertical.h", "nntl/layer/pack_horizontal.h", "nntl/layer/pack_tile.h", "nntl/grad_works/grad_works.h: pre_training_fprop, apply_grad"]}
{"id": "C194", "title": "train() with momentum, Nesterov momentum, Adam or RMSProp follows their formulas over shuffled epochs", "statement": "In exact arithmetic, whatever the optimisers of the layers are, a call of train() that starts leaves the network with the weights that the optimisers reach from the first state when each is given the partial derivatives of the mean loss, over the batches of one epoch after the other: for every epoch that was begun there is an order of the training samples, and its batches are consecutive groups of that order. With momentum, Nesterov momentum, Adam or RMSProp in all layers, these are the weights of the formulas of the textbooks, with all derivatives of a step taken at the same weights. If the training ends with success and no callback stops it, there are as many epochs as were asked for. Evaluations by reports and callbacks make no difference.", "quantifier": "all networks of fully connected layers in nested packs, optimisers, settings, training data, options, batch sizes, numbers of epochs, shuffles, schedules of worker threads that copy samples, and all evaluations made by reports and callbacks", "why_tests_cant": "It ranges over all networks, optimisers, data, shuffles, schedules and whole trainings.", "anchors": ["nntl/nnet.h: nnet::train", "nntl/train_data/_train_data_simple.h: on_next_epoch, on_next_batch", "nntl/layers.h: layers::fprop, layers::bprop", "nntl/layer/fully_connected.h: _LFC", "nntl/layer/output.h: _layer_output", "nntl/grad_works/grad_works.h: pre_training_fprop, apply_grad"]}
{"id": "C195", "title": "All nine optimiser types, with any momentum and individual learning rates, follow their formulas for whole networks and whole trainings", "statement": "In exact arithmetic and without norm limits and dropout of learning rates: a network whose layers use any mix of the nine optimiser types (constant rate, RMSProp of Hinton and of Graves, RProp, ModProp, Adam, AdaMax, Nadam, RAdam), each with no momentum, momentum or Nesterov momentum, with or without individual learning rate gains (compared with the previous step or with the velocity), and with L1 and L2 penalties, is trained as the formulas of these methods say, weight by weight, with the partial derivatives of the mean loss of each batch; and so is a whole call of train() over shuffled epochs. Everything but the type and the decays may change from step to step, momentum and gains may be switched on and off.", "quantifier": "all networks of fully connected layers in nested packs, optimiser types and settings of each layer, schedules of settings, histories of evaluations and training steps, training data, options, shuffles, numbers of epochs", "why_tests_cant": "It ranges over all networks, optimisers, schedules of settings, data and histories.", "anchors": ["nntl/grad_works/grad_works.h: pre_training_fprop, apply_grad", "nntl/grad_works/ILR.h: ILR_apply", "nntl/interface/math/mathn_mt.h: RMSProp_Hinton, RMSProp_Graves, RProp, ModProp, Adam, AdaMax, RNadam, apply_ILR", "nntl/nnet.h: nnet::train", "nntl/layers.h: layers::fprop, layers::bprop"]}
{"id": "C196", "title": "Networks trained with every setting of the optimisers, norm limits, dropout of learning rates, blocked learning and untrained layers included", "statement": "In exact arithmetic: a network whose layers use any mix of the nine optimiser types with any settings (momentum, gains, penalties, dropout of learning rates, limits of the lengths of weight vectors), with learning blocked in any steps and some layers not trained at all, is changed by any history of training steps and evaluations, and by a whole call of train(), as the rules say that one reads in the documentation of these settings: Nesterov look-ahead (with its own dropout and limit) before the forward pass, derivatives of the mean loss of the batch at the weights after the look-ahead, the method, the gain, the momentum, the dropout of the step, and last the limit for each neuron. Everything but the type and the decays may change from call to call.", "quantifier": "all networks of fully connected layers in nested packs, optimiser types and settings of each layer, schedules of settings and of blocked steps, sets of untrained layers, random masks, histories, training data, options, shuffles, numbers of epochs", "why_tests_cant": "It ranges over all networks, optimisers, schedules of settings, masks, data and histories.", "anchors": ["nntl/grad_works/grad_works.h: pre_training_fprop, apply_grad, isLearningBlocked", "nntl/interface/math/mathn_mt.h: mCheck_normalize_rows, evMulC_ip_Sub_ip", "nntl/layer/fully_connected.h: _lfc_bprop, _on_fprop_in_training_mode", "nntl/layer/output.h: _outp_bprop, _on_fprop_in_training_mode", "nntl/nnet.h: nnet::train"]}
{"id": "C197", "title": "Norm limits hold after every training, blocked learning and untrained layers keep weights", "statement": "After any history with at least one training step the weight vector of every neuron of a trained layer with a limit is within the limit. While learning is blocked, no history changes a weight. A layer that is not to be trained keeps its weights. (The last is false if the layer has Nesterov momentum and a limit of lengths: its weights are shrunk before the forward pass; it holds otherwise.)", "quantifier": "all networks, optimisers, settings, sets of untrained layers, data and histories", "why_tests_cant": "It ranges over all networks, optimisers, schedules of settings, data and histories.", "anchors": ["nntl/grad_works/grad_works.h: pre_training_fprop, apply_grad, isLearningBlocked", "nntl/interface/math/mathn_mt.h: mCheck_normalize_rows, evMulC_ip_Sub_ip", "nntl/layer/fully_connected.h: _lfc_bprop, _on_fprop_in_training_mode", "nntl/layer/output.h: _outp_bprop, _on_fprop_in_training_mode", "nntl/nnet.h: nnet::train"]}
{"id": "C198", "title": "Training with dropout and penalties on activations descends on the losses of thinned networks; evaluation uses the whole network", "statement": "In exact arithmetic: a network of fully connected layers in nested packs, each layer with its own dropout or alpha dropout and its own penalties on activations. Every training step draws random numbers once for every dropout, evaluation never does. In a training step the network shows what the network thinned with the random numbers of this step answers, and every optimiser of a trained layer is given exactly the partial derivatives (in tile packs divided by the number of tiles) of the mean loss of this thinned network plus the penalties divided by the size of the batch. So after any history the weights and the states of optimisers are those reached by the optimisers batch after batch on these objectives; evaluations in between change neither them nor the random numbers later batches get. In evaluation the network answers each sample alone with the whole network, nothing dropped or scaled.", "quantifier": "all networks of fully connected layers in nested packs, kinds and probabilities of dropout, random numbers, penalties, optimisers, histories of training steps and evaluations, data", "why_tests_cant": "It ranges over all networks, random numbers, optimisers, data and histories.", "anchors": ["nntl/layer/extender.h: fprop, bprop, _fprop4PA", "nntl/dropout/dropout.h: _dropout_apply, _dropout_restoreScaling", "nntl/dropout/alpha_dropout.h: AlphaDropout", "nntl/layer/_penalized_activations_base.h: _pab_update_dLdA", "nntl/grad_works/grad_works.h: pre_training_fprop, apply_grad", "nntl/layer/fully_connected.h: _lfc_bprop, _on_fprop_in_training_mode", "nntl/layers.h: fprop, bprop"]}
{"id": "C199", "title": "Every setting of the optimisers together with dropout and penalties on activations", "statement": "In exact arithmetic: in networks with dropout and penalties on activations, layers with any mix of the nine optimiser types and any settings are changed by any history as the rules of these settings say, with the derivatives of the penalised mean losses of the thinned networks. Limits of the lengths of weight vectors hold after any history with a training step, and while learning is blocked no weight changes.", "quantifier": "all networks of fully connected layers in nested packs, kinds of dropout, random numbers, penalties, optimiser types and settings, schedules, histories, data", "why_tests_cant": "It ranges over all networks, random numbers, optimisers, schedules, data and histories.", "anchors": ["nntl/layer/extender.h: fprop, bprop, _fprop4PA", "nntl/dropout/dropout.h: _dropout_apply, _dropout_restoreScaling", "nntl/dropout/alpha_dropout.h: AlphaDropout", "nntl/layer/_penalized_activations_base.h: _pab_update_dLdA", "nntl/grad_works/grad_works.h: pre_training_fprop, apply_grad", "nntl/layer/fully_connected.h: _lfc_bprop, _on_fprop_in_training_mode", "nntl/layers.h: fprop, bprop"]}
{"id": "C200", "title": "A whole call of train() with dropout and penalties descends on the thinned losses of shuffled epochs", "statement": "In exact arithmetic: train() for a network of fully connected layers in nested packs with dropout, alpha dropout and penalties on activations, with any optimisers and settings. There is an order of the training samples for every epoch that was begun, no sample twice in an epoch, such that the weights at the end are those the optimisers reach from the first ones over the batches of these epochs, when each batch gives them the partial derivatives of the penalised mean loss of the network thinned with the draw of this batch. Draws are numbered in the order of the batches over all epochs: reports and callbacks that evaluate the network in between consume none of them. A training that ends with success, without callbacks that stop it, has as many epochs as asked for.", "quantifier": "all networks of fully connected layers in nested packs, kinds of dropout, random numbers, penalties, optimisers and settings, training data, batch sizes, numbers of epochs, reports and callbacks", "why_tests_cant": "It ranges over all networks, random numbers, optimisers, data, shuffles and histories.", "anchors": ["nntl/nnet.h: train", "nntl/train_data/_train_data_simple.h: on_next_epoch, on_next_batch", "nntl/layer/extender.h: fprop, bprop", "nntl/dropout/dropout.h: _dropout_apply, _dropout_restoreScaling", "nntl/layer/_penalized_activations_base.h: _pab_update_dLdA", "nntl/grad_works/grad_works.h: pre_training_fprop, apply_grad"]}
{"id": "C201", "title": "Limits of lengths, frozen layers and blocked learning hold whatever the gradients are", "statement": "In exact arithmetic: a network of fully connected layers in nested packs, with or without dropout and penalties on activations, with any activation functions (also at their kinks and jumps), any loss and any data. After any history with a training step, and after any call of train() that trained on a batch, with success or with an error, the weight vector of every neuron of a trained layer is within the limit that is set for its gradient works. A layer that is not trained and has no velocity keeps its weights, if it does not use Nesterov momentum together with a limit of lengths. While learning is blocked no weight changes.", "quantifier": "all networks of fully connected layers in nested packs, activation functions, losses, dropout, penalties, optimisers and settings, data, histories and calls of train()", "why_tests_cant": "It ranges over all networks, gradients, random numbers, optimisers, data, shuffles and histories.", "anchors": ["nntl/nnet.h: train", "nntl/layer/fully_connected.h: bprop", "nntl/layer/output.h: bprop", "nntl/layer/extender.h: fprop, bprop", "nntl/grad_works/grad_works.h: pre_training_fprop, apply_grad"]}
{"id": "C202", "title": "An optimiser writes only to its own matrices and treats neurons separately", "statement": "A history of calls of the gradient works of a layer writes to no memory behind the last element of the weights, the velocity, the matrices of the optimiser or the gains, and to no matrix that was not allocated. The weights of a neuron depend on nothing but the weights, gradients, random numbers and optimiser data of this neuron, whatever happens to the other neurons of the layer; without a limit of lengths every single weight depends on nothing but its own. (With a limit the weights of one neuron are coupled.)", "quantifier": "all optimisers and settings (which may differ from call to call), gradients, random numbers, numbers and interleavings of threads, thresholds and histories", "why_tests_cant": "It is a statement about pairs of histories and about all memory, for all schedules of threads.", "anchors": ["nntl/grad_works/grad_works.h: apply_grad, pre_training_fprop", "nntl/grad_works/ILR.h: ILR_apply", "nntl/interface/math/mathn.h: apply_momentum, Adam, RNadam, RMSProp_Hinton, mCheck_normalize_rows"]}
{"id": "C203", "title": "The order of samples inside batches does not matter; nor does any order when the training set is one batch", "statement": "Two histories of training steps on batches that have the same samples in different orders end with the same weights, whatever was evaluated in between. If the whole training set is one batch, two calls of train() on training sets with the same samples in any orders, from the same weights and optimiser memories, that begin the same number of epochs end with the same weights and the networks give the same answers, whatever the shuffles, options, callbacks and reports are. (Over the real numbers; with floating point sums of other orders round differently.)", "quantifier": "all networks of layers in packs, methods and settings of the optimisers, batches and reorderings of them, training sets, shuffles, options of train(), callbacks and numbers of epochs", "why_tests_cant": "It compares all pairs of histories that differ by arbitrary permutations.", "anchors": ["nntl/nnet.h: nnet::train", "nntl/train_data/_train_data_simple.h: on_next_epoch, on_next_batch", "nntl/layer/fully_connected.h: _lfc_bprop", "nntl/layer/output.h: _outp_bprop", "nntl/grad_works/grad_works.h: apply_grad"]}
{"id": "C204", "title": "With plain gradient descent a step on a batch is the mean of the steps on its samples", "statement": "The weights after one training step on a batch of R samples are the means of the weights that training steps on each of the samples alone give from the same weights, in every layer and in tile packs too: the size of a batch does not scale the step.", "quantifier": "all networks of layers in packs with plain gradient descent, batch sizes, samples and weights at which derivatives exist", "why_tests_cant": "It relates R + 1 different runs for all R and all samples.", "anchors": ["nntl/nnet.h: nnet::train", "nntl/train_data/_train_data_simple.h: on_next_epoch, on_next_batch", "nntl/layer/fully_connected.h: _lfc_bprop", "nntl/layer/output.h: _outp_bprop", "nntl/grad_works/grad_works.h: apply_grad"]}
{"id": "C205", "title": "With L1 and L2 penalties of weights, training descends on the loss that is reported", "statement": "In exact arithmetic: a network whose layers use plain gradient descent with L1 and L2 penalties of weights (each layer with its own scales, with or without biases). After any history, each training step is one step of gradient descent on the mean loss of the batch plus the penalties of all weights that the network reports; so two networks that calculate the same function, trained on the same batches with the same settings, have the same weights; and if the learning rates are small enough the step lowers the reported loss of its batch, unless all its derivatives with respect to trained weights are 0.", "quantifier": "all networks of layers in packs with plain gradient descent, scales of penalties, treatments of biases, histories, batches and weights at which derivatives exist", "why_tests_cant": "It is about derivatives at all weights and about all histories and sizes.", "anchors": ["nntl/grad_works/loss_addendums.h: _applyLossAddendums, lossAddendum", "nntl/grad_works/grad_works.h: apply_grad", "nntl/layer/fully_connected.h: _lfc_bprop", "nntl/layer/output.h: _outp_bprop", "nntl/layer/pack_tile.h: lossAddendum"]}
{"id": "C206", "title": "With L1 and L2 penalties, weights at 0 included, training is subgradient descent with the least subgradients", "statement": "In exact arithmetic: plain gradient descent with nonnegative L1 and L2 scales. Each training step after any history, and a whole call of train() over the batches of shuffled epochs, subtracts the learning rate times the derivative of the mean loss (averaged over tiles) plus the subgradient of the penalty that has the least absolute value; no condition on weights, so a weight that is exactly 0 is not pushed by its L1 penalty. The result is determined by the first weights and the batches.", "quantifier": "all networks of layers in packs with plain gradient descent, nonnegative scales, treatments of biases, all weights, histories, training sets, shuffles and options of train()", "why_tests_cant": "It is about all weights, including those where the penalty has no derivative, and all histories.", "anchors": ["nntl/grad_works/loss_addendums.h: _applyLossAddendums", "nntl/loss_addendum/L1.h: dLossAdd", "nntl/loss_addendum/L2.h: dLossAdd", "nntl/grad_works/grad_works.h: apply_grad", "nntl/nnet.h: nnet::train", "nntl/train_data/_train_data_simple.h: on_next_epoch, on_next_batch"]}
{"id": "C207", "title": "Of the samples in a batch only their shares matter: repeating every sample equally often changes nothing", "statement": "In exact arithmetic: if every sample has the same share of the rows in two batches, possibly of different sizes and in different orders, the mean loss is the same for all weights. Two histories of training steps on such batches, with any of the optimisers in the layers, end with the same weights; so do two calls of train() with the whole training set as one batch on training sets with the same shares of samples that begin the same number of epochs.", "quantifier": "all networks of layers in packs, optimisers and settings, batches and training sets of all sizes with the same shares, histories, shuffles and options of train()", "why_tests_cant": "It compares all pairs of batches and of training sets, of all sizes.", "anchors": ["nntl/grad_works/grad_works.h: apply_grad", "nntl/nnet.h: nnet::train", "nntl/train_data/_train_data_simple.h: on_next_epoch, on_next_batch", "nntl/layer/fully_connected.h: bprop"]}
{"id": "C208", "title": "Training keeps symmetries: neurons that start the same stay the same, and networks that differ by the order of their neurons train alike", "statement": "In exact arithmetic: for every way of moving weights to other places of their matrices that leaves all answers of the network as they are (a symmetry; in particular, changing places of neurons of a fully connected layer below another one or below the output layer), two networks whose weights and memories of the optimisers differ by the symmetry still do so after the same training steps, and answer the same. If weights and memories are symmetric themselves, they are so after any history and after a whole call of train(): two neurons that start with the same weights, ingoing and outgoing, have the same weights for ever. Any of the optimisers with any settings but random dropping of learning rates, which can tell them apart.", "quantifier": "all networks of layers in packs, symmetries, optimisers and settings without dropping of learning rates, weights, histories, training sets, shuffles and options of train()", "why_tests_cant": "It is about all symmetric weights and all histories of training.", "anchors": ["nntl/grad_works/grad_works.h: apply_grad, pre_training_fprop", "nntl/nnet.h: nnet::train", "nntl/layer/fully_connected.h: bprop", "nntl/layer/output.h: bprop", "nntl/layer/pack_vertical.h: bprop"]}
{"id": "C209", "title": "The order of the features and the order of the outputs do not matter for training", "statement": "In exact arithmetic: if the features of all samples are in another order, and the weights of the lowest layer (fully connected) and the memories of its optimiser are too, then after the same training steps the weights are those of the other training in this order, and the network gives the same answer to a sample in this order. If the expected answers (classes) are in another order, and the weights of the output layer are too, then so are the answers of the trained network, for output layers with an activation function for each neuron and softmax layers alike. Both also for two calls of train() with the whole training set as one batch, whatever the order of the samples and the shuffles. Any of the optimisers with any settings but random dropping of learning rates.", "quantifier": "all networks of layers in packs (with a fully connected lowest layer for features), permutations of features and outputs, optimisers and settings without dropping of learning rates, weights, histories, training sets, shuffles and options of train()", "why_tests_cant": "It is about all permutations, weights and histories of training.", "anchors": ["nntl/grad_works/grad_works.h: apply_grad, pre_training_fprop", "nntl/nnet.h: nnet::train", "nntl/layer/fully_connected.h: bprop", "nntl/layer/output.h: bprop", "nntl/train_data/_train_data_simple.h: on_next_epoch, on_next_batch"]}
{"id": "C210", "title": "Weights of features that are 0 in all training samples are not changed and have no influence", "statement": "In exact arithmetic: if a feature is 0 in all samples of all batches, then its weights in the lowest layer (fully connected) are never changed by training with any of the optimisers, momentum, gains and dropping of learning rates, provided that the layer has no penalties of weights and no limits of lengths; weights that are 0 stay 0 even with penalties and limits. The same after a whole call of train() if the feature is 0 in all training samples. Two networks that differ by these weights only still do so after the same training: all other weights are the same. The same for every single weight on which no batch depends.", "quantifier": "all networks of layers in packs with a fully connected lowest layer, optimisers and settings, weights, histories of training steps and evaluations, training sets, shuffles and options of train()", "why_tests_cant": "It is about all histories of training and all optimisers and settings.", "anchors": ["nntl/grad_works/grad_works.h: apply_grad, pre_training_fprop", "nntl/nnet.h: nnet::train", "nntl/layer/fully_connected.h: bprop", "nntl/grad_works/loss_addendums.h: _applyLossAddendums"]}
{"id": "C211", "title": "The scale of the loss does not matter for RProp, and for gradient descent it is a factor of the learning rate", "statement": "In exact arithmetic, without penalties of weights: if the loss (and the derivative the output layer uses) is multiplied by a positive number, then training with RProp gives exactly the same weights, and plain gradient descent (with any momentum, gains, dropping of learning rates and limits of lengths) gives exactly the same weights if its learning rates are divided by the number. Each layer may use one or the other. The same for the shuffled batches of a whole call of train(). With penalties this is false: their slope is added to the derivative of the loss before the sign is taken.", "quantifier": "all networks of layers in packs, positive factors, settings and their changes over time, weights, histories of training steps and evaluations", "why_tests_cant": "It is about all losses, factors, settings and histories of training.", "anchors": ["nntl/grad_works/grad_works.h: apply_grad, pre_training_fprop", "nntl/nnet.h: nnet::train", "nntl/layer/fully_connected.h: bprop", "nntl/layer/output.h: bprop"]}
{"id": "C212", "title": "For Adam, AdaMax, Nadam and RAdam the scale of the loss is a factor of the small constant", "statement": "In exact arithmetic, without penalties of weights: if the loss (and the derivative the output layer uses) is multiplied by a positive number q, then training with Adam, AdaMax, Nadam or RAdam with the small constant multiplied by q gives exactly the same weights, with any momentum, gains, dropping of learning rates and limits of lengths. Layers may use different ones of these methods, or RProp or plain gradient descent as in C211. The same for the shuffled batches of a whole call of train(). For RMSProp there is no such constant: its first step is a plain one that grows with the loss.", "quantifier": "all networks of layers in packs, positive factors, settings and their changes over time, weights, histories of training steps and evaluations", "why_tests_cant": "It is about all losses, factors, settings and histories of training.", "anchors": ["nntl/grad_works/grad_works.h: apply_grad, pre_training_fprop", "nntl/nnet.h: nnet::train", "nntl/interface/math/mathn.h: Adam_st, AdaMax_st, RNadam", "nntl/layer/output.h: bprop"]}
