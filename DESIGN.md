# Formal model of Arech/nntl in Lean 4: design

## 1. Trusted base

* Lean 4.33.0's kernel. Every theorem is a kernel-checked term. No `sorry`, `admit`, `native_decide`,
  `bv_decide`, `implemented_by`, `unsafe`, and no axioms of our own.
* The axioms theorems may depend on: `propext`, `Classical.choice`, `Quot.sound` (Lean's standard three).
  `lean/Verif/Axioms.lean` prints the axioms of every property theorem during the build.
* The reading of the C++ code. Nothing here was compiled or run. Each definition cites the file and lines in
  `/repo` it models, and names its simplifications.

## 2. Modelling conventions

* Integers. `vec_len_t`, `numel_cnt_t` and friends are modelled as `Nat`/`Int` without overflow, unless a property
  is about overflow. Sizes that the code requires to be non-negative are `Nat`.
* Real numbers. `real_t` is modelled by an arbitrary ordered field, or by the reals where a root or an exponential
  is needed. Rounding, NaN, infinities and denormals are not modelled. Pure data movement is modelled over an
  arbitrary type, so it holds for float bit patterns too.
* Memory. A matrix is its row/column counts, its flags and its column-major storage as a function or a list.
  Pointer loops are modelled as loops over offsets. Reads and writes outside of the storage are a distinct
  outcome (`none` or an explicit `ub` constructor) where the property is about memory safety.
* `NNTL_ASSERT` is a no-op in release builds. It is used only as documentation of preconditions. Every
  precondition used by a theorem is an explicit hypothesis, with an `example` showing that it can be met.
* `STDCOUTL + abort()` paths are a distinct outcome.
* Threads. The pool is a transition system with one program counter per thread; mutexes and condition variables
  are part of the state, spurious wake-ups are transitions. Memory is sequentially consistent.
* Templates and CRTP (`get_self()`) are resolved to the default implementation.

## 3. Layout

`lean/Verif/<Area>/Model.lean` holds the model, `Spec.lean` (when needed) the independent vocabulary used by the
statements, `Lemmas.lean` the helper lemmas, `Props.lean` the property theorems together with their non-vacuity
`example`s.

## 4. Properties: what is modelled and how it is proved

| id | model | proof |
|----|-------|-------|
| C01 | `partition_count_to_workers` as a loop over workers | induction over the loop, division lemmas |
| C02 | pool as a transition system (mutex, two condition variables, per-worker pc) | inductive invariant over all steps |
| C03 | same | invariant plus enabledness of a step in every reachable non-final state |
| C04 | destructor added to the same system | negation: a reachable stuck state. Partial: terminates if the flag is set while no worker is between test and block |
| C05 | `reduce` over the partition of C01 | list induction on adjacent ranges |
| C06 | column-major offsets, list storage | Euclidean division |
| C07 | matrix state and operations | invariant by induction over the operations |
| C08 | `clone_to`, `copy_to`, `operator==` | unfolding, list equality, store model with two matrices |
| C09 | `clone_to_no_bias` | negation by witness; partial for destinations that do not emulate biases |
| C10 | `smatrix_deform` with allocated size | invariant by induction over operations |
| C11 | heap of blocks with owner flags | invariant by induction over operations |
| C12 | integer square root form of `sTrianglCoordsFromIdx` | inequalities on triangular numbers |
| C13 | permutation vector, `on_next_epoch`, `on_next_batch` | list slicing lemmas |
| C14 | batch extraction of both matrices with one index vector | list lemmas |
| C15 | `walk_over_set`, `next_subset` | negation for rest 1; partial for other rests |
| C16 | `init4train`, `init4inference` decision logic | case analysis, integer arithmetic |
| C17 | `is_initialized4train` | negation by witness; partial under the size relation |
| C18 | byte-level encoder (spec) and reader (model) | round trip by induction on fields and elements |
| C19 | reader | prefix lemma: every read consumes bytes |
| C20 | reader | case analysis |
| C21 | reader with destination state | case analysis |
| C22 | `DataBuffer` with ghost log | refinement to a queue, induction over operations |
| C23 | same with several claims | negation by reachable witness; partial for one outstanding claim |
| C24 | `release_data` | negation for the empty release on a full buffer; partial for non-empty ones |
| C25 | `train()` as a loop producing an event trace | induction over epochs |
| C26 | same | induction over epochs |
| C27 | `vector_conditions` | index arithmetic |
| C28 | option setters | invariant over call sequences |
| C29 | `calcLossAndReport` | negation by witness; partial for one batch |
| C30 | evaluator counters | sums over list partitions |
| C31 | layer trees and pre-order numbering | induction over trees |
| C32 | coverage marks | list induction, pigeonhole for the optional pack |
| C33 | memory requirement aggregation and distribution over trees | induction over trees |
| C34 | save / set ones / restore of the column under the bias | function update lemmas |
| C35 | column offsets, gradient accumulation loop | prefix sums, induction |
| C36 | two-buffer alternation | induction over layers |
| C37 | extract and fill by mask | list induction |
| C38 | stack allocator | invariant over histories |
| C39 | scan loops and the threaded merge | induction; negation for ties in the column-split variant |
| C40 | scan loops and merges | induction over columns |
| C41 | chunk-copy loops | index arithmetic, loop invariants |
| C42 | `mCloneCols` loop | loop invariant; negation for zero counts |
| C43 | extraction loops | loop invariant |
| C44 | transposition loops | loop invariant |
| C45 | insertion into the k-cache | invariant over elements |
| C46 | `aggregate` | invariant over batches; negation for non-distinct orders |
| C47 | softmax over the reals | `Real.exp` lemmas |
| C48 | apply_grad with momentum over a field | induction over steps |
| C49 | apply_grad with flags | case analysis, induction |
| C50 | Adam kernel | induction over steps |
| C51 | ILR kernel | induction over steps |
| C52 | row normalisation over the reals | algebra with `Real.sqrt` |
| C53 | make_dropout kernel and layer glue | list lemmas |
| C54 | ScaleCentralData | induction over steps |
| C55 | bwlist | induction over operations |
| C56 | confusion matrix | induction |
| C57 | settings list/map | refinement to a function |
| C58 | prefix-sum offsets | injectivity of the option index |
| C59 | nextBatch | negation; partial |
| C60 | L1/L2 addendums on a matrix with hidden last column | list lemmas |
| C61 | `init4inference` failure paths | negation by witness; partial for sizes below the requested one |
| C62 | batch matrices of the data feeder | invariant over reachable states |
| C63 | same | enabledness of every announced batch |
| C64 | event trace of `train()` with the mode flag | induction over the trace |
| C65 | same | case analysis of all exits |
| C66 | `_is_initialized`-style questions | negation by witness; partial for non-zero arguments |
| C67 | two sessions in a row | negation by witness; partial with reinitialisation |
| C68 | announced against used scratch memory, routine by routine | stack allocator of C38 plus case analysis of the options |
| C69 | biggest gradient over the layer tree | induction over trees |
| C70 | RMSProp, RMSProp-Graves, RProp, ModProp kernels | induction over steps, Cauchy-Schwarz form |
| C71 | AdaMax kernel | induction over steps |
| C72 | Nadam, RAdam kernels | induction over steps |
| C73 | coefficients of dropout and alpha dropout | algebra: expectation and variance over the two outcomes |
| C74 | normalisation loops with tolerance | induction over tries |
| C75 | same | case analysis; negation of the success half |
| C76 | scores of the confusion matrix over 32-bit counters | order arguments; negation of the range by overflow |
| C77 | rows shown by the generic data holder | invariant over histories |
| C78 | activation classes and the bodies of their kernels over the reals | derivative of every documented formula, then the element-wise kernel theorem |
| C79 | same | order arguments over the documented formulas |
| C80 | loss kernels with plain and compensated summation over any partition | sums over partitions; bounds for the shifted logarithm |
| C81 | gradient kernels of the output layer, cut to bounds | chain rule from C78; witnesses where it fails |
| C82 | calls of BLAS with transposition flags, leading dimensions and buffers; BLAS by its contract | cell by cell for each combination of layouts; reads outside of a buffer are a separate outcome |
| C83 | loops over columns, walk over a triangle by ranges of linear indices | element-wise kernel theorem; bijection between indices and cells |
| C84 | the steps of the DeCov loss and gradient on scratch matrices | composition of C82 and C83, then calculus on the closed formula |
| C85 | the passes of C34–C37 over the reals, with the weights of a tree moved along a line | per layer: adjoint of the derivative; composition over packs by induction on the tree; output layer by C81 |
| C86 | loop of `calcLossAndReport` over the batches of the training data model | sums over the batches of C15 |
| C87 | cached addendum, its resets, the flags set by the initialisation | invariant: the cache is empty or that of the weights; witnesses for stale values |
| C88 | workers and main thread as a transition system, one rule per atomic action, ghost log of events | inductive invariant: counts of begun and ended calls, flags and the counter agree with the program counters |
| C89 | list of tasks, iterators, the flag that interrupts a pass | invariant: finished calls of a pass use up a prefix of the list; lock excludes changes |
| C90 | the same system | no deadlock from the invariant; decreasing measure after the destructor's flags; potential for the wait of `exec`; witness of the delay |
| C91 | which action accesses which plain member | exclusion by lock and phase; witness for the flags |
| C92 | `run` over trees of layers, tries and re-initialisations as nested loops over an abstract measure of the activations | induction over the walk: later layers do not influence what was measured of earlier ones |
| C93 | the same | the same induction with the exact change of the weights |
| C94 | chains of fully connected layers over the reals with mean and deviation as computed | change of the weights is an affine map of the pre-activations; at most three tries |
| C95 | the same loop over a measure with slope `c` | exact factor of the error per try; witness |
| C96 | fill order of the generator | index computation |
| C97 | loop over attempts, gain | loop invariant; the decomposition is a hypothesis |
| C98 | shuffled indexes per neuron | induction over neurons and connections with any permutation |
| C99 | a wrapper `lex` around any layer object of the passes with masks, saved activations and stored terms as memory; penalties as functions on real matrices | the wrapper is lawful if the layer is; it calculates derivatives if the layer does; trees by the induction of C85 |
| C100 | a relation between states (twins: same weights, optimiser states, count of draws) for each kind of layer and for trees | twins have the same functions, a training step keeps them twins, an inference pass gives a twin of what was before: induction over trees, then over histories; the optimisers of C48–C52 as the optimiser of a layer |
| C101 | `_lfc_fprop`, `_lfc_bprop`, `_outp_bprop` as sequences of calls on matrix objects: products (C82), kernels run by threads (C78, C47), the optimiser (C48–C52), with the assertions | each call has one outcome, the last one gives the formula; composition; the same memory as `Pass.fc` and `Pass.outLayer` |
| C102 | the inspector `GradCheck` call by call in trees of layers, the functor of `gradcheck()` with its loops, shuffles and counters, the settings; arithmetic abstract | a forward pass with the inspector = evaluation of the network with one value changed, a backward pass records the derivative of the layer (induction on the tree); the loops by induction with a log of trials |
| C103 | the same, with the object around it (`_init`, constructor and destructor of the functor) | memory is restored by each pass; an inspector that is not active does not influence passes (simulation) |
| C104 | a trial over the reals | symmetric difference quotients converge; counterexamples |
| C105 | the same as C102, undefined behaviour is an outcome | totality from C102; counterexamples |
| C106 | the optional pack of C37 with the derivatives of C85 | a sum over open rows is a sum over the rows the layer sees; derivative by induction over the layers under the gate; composition with C85 |
| C107 | threads as jobs that draw and write one element per step, under any schedule | an invariant that describes each job by the number of its elements done; pieces are a partition |
| C108 | one element of each filling function; integers; the C library | per element, lifted to arrays with C107; a rounding function as a parameter; floor arithmetic; witnesses |
| C109 | construction, seed, reseed, sequences of calls | induction over calls with C107; witnesses |
| C110 | `rng_helper` over the matrices of C06 | cells of the layouts; witness for the bias row |
| C111 | the loop of the distribution object; `generate_canonical` | induction over elements and over drawn words |
| C112 | threads that take, use and release the flag, step by step | invariant: serial execution of finished sections plus the prefix of the section in progress |
| C113 | rounds of a wait; durations in nanoseconds | induction over the history; arithmetic; the property is false of the code |
| C114 | requests to the operating system that are granted or not | loops with the first refused request; composition for nested objects |
| C115 | archives with a stack of structs over lists of named variables; library calls that fail or not | mutual induction over objects, for saving and for loading |
| C116 | the loader's comparison of names | as C115; the property is false of the code |
| C117 | latched errors | induction: everything inside a struct changes this struct only; the property is false of the code |
| C118 | elements as bit patterns, conversions of the environment | case distinction over classes; the property is false of the code |
| C119 | open and close as decision functions | case distinction |
| C120 | the stack of begun structs, with aliasing | refinement of a recursive specification on scopes, mutual induction over programs; false of the code in three cases |
| C121 | the reader's loops over JSON values | induction over columns and elements; both directions against "describes a matrix" |
| C122 | four members, then `absorb` | composition of C121 |
| C123 | error codes | as C122; the property is false of the code |
| C124 | `resize` of C06 | case distinction; the property is false of the code |
| C125 | the in-memory object as four matrices, its operations as steps | induction over the sequence; false for transposed labels |
| C126 | absorb, extract, assignment, replace_Y, dupe | case distinction; copies by C08; false of dupe for transposed data |
| C127 | in-place transposition | index arithmetic, matrices of one row or column apart |
| C128 | the loops with a constant, with and without biases, both layouts | ranges of the pool by C01, index arithmetic |
| C129 | the loops over two matrices | the same; witness for biases in the last row |
| C130 | binarization with both orders of evaluation | proved for one order, witness for the other |
| C131 | OR of rows as a sum in the monoid of bits; counters as folds; sum of products | C40 for any commutative monoid; induction; witnesses |
| C132 | norms of rows, coefficients, products; division by zero a distinct outcome | norms and products by the lemmas of the max-norm constraint |
| C133 | the circular buffer with unrestricted requests | invariant: cells up to the last delivered one, or all cells, hold delivered values |
| C134 | object, background threads and main thread as a transition system over the models of C22–C24 and C107–C111 | invariant of C133 for both buffers, results of the base class by C107 |
| C135 | the same | the queue invariant of C22 with the sum of outstanding claims, bounded by threads and threshold |
| C136 | `init_rng` with the outcome of the allocation as a parameter | case analysis; witness of the wrong result |
| C137 | seeds as arguments of the generator's initialisation | arithmetic; witness: two runs |
| C138 | a network object as a state machine: sizes known to the common data, told to the layers, allocated; public calls with outcomes of initialisation as parameters | invariant over all histories; promise kept by calls one by one; witness |
| C139 | the same, mode of each forward pass | invariant; witness |
| C140 | the same, number of initialisations of the layers and size of the temporary memory | invariant; witnesses |
| C141 | the same, recorded error and failed layer | case analysis of calls; witnesses |
| C142 | the same together with the training data object of C13–C17 | sizes of both objects related by the initialising calls, batches by C15; witness |
| C143 | settings of `grad_works` as a state machine over calls of setters, initialisations and steps | induction over calls against the list of what was asked for; witness |
| C144 | the same with memory: absent, allocated, written; size of the temporary storage | invariant from `gw_init` on; witnesses; impossibility theorems for individual rates |
| C145 | the same | equality of runs of two objects; counting of gradients |
| C146 | `write_weights` / `read_weights` on top of the archive of C115: networks as trees of layers | mutual induction over the tree; injectivity of `name_index` |
| C147 | the same, reading arbitrary variables | mutual induction with a description of the file; witnesses |
| C148 | `_transf_train_data` as a state machine that calls a transformer: `on_next_epoch`, `on_next_batch` | invariant over all calls (permutation of the base samples), slices of a permutation |
| C149 | `walk_over_set`, `next_subset` | arithmetic of whole base samples; witnesses for remainder one and for differing counts |
| C150 | `init4train`, `init4inference`, `is_initialized4*`, cutting to 32 bits | case analysis over the request; witnesses |
| C151 | `normalize_data` with an arbitrary normaliser | induction over what a normaliser may do; witnesses |
| C152 | `seq_data` and the reader's second destination; names are parsed as `sscanf("c%d")` does | induction over the entries, with the places already filled in every class; successful reading is monotone and consumes the whole file |
| C153 | the same | invariant: number of empty places = number of fields to come; witnesses for all files of a kind for the failures |
| C154 | the inspector as a state machine over the calls of the interface, with the archive of C117 and a disk; conditions as data | the passes: induction over the nesting; batches, epochs and the training: induction over the schedule; names by injectivity of decimal numbers |
| C155 | the same | what a file holds is computed by `contents` from the pass alone; induction over the nesting |
| C156 | the same | one case for each call; witnesses for all states of a kind for the failures |
| C157 | layers as a tree with what each stores; the archive of C115; options as data | a table of variables says what is to be stored; the items saved are shown to be those of the table; induction over the nesting |
| C158 | the same, loading | a calculus of steps (what a step needs to succeed, what it yields, total if nothing fails), composed along the code; induction over the nesting; witnesses computed from the theorem |
| C159 | the same | a frame lemma for each function, for any state of the archive; induction over the nesting |
| C160 | the loops over bit patterns of `float`, `double`, integers; reads outside the storage and loops that do not end are outcomes | IEEE-754 meaning of patterns as a separate file; a lemma about the loop (invariant over the position); comparison of bits = comparison of numbers; Sterbenz for `_isAlmostBinary` |
| C161 | the same, the three loops over biases | the same; divisibility for the loop that misses its end |
| C162 | flags and contents of biases on the matrix of C06-C12 | an invariant, preserved by every operation under the caller's obligations; induction over the run |
| C163 | a matrix as an offset into the storage of another one, `get`/`set` through it | cells of columns; induction over writes |
| C164 | `_mIsOrthogonal` over exact rationals on the `gemm` of C82 | `gemm_spec`, invariant of the two loops |
| C165 | constructor, destructor, generated copy constructor of networks over numbered objects that are alive or destroyed; double destruction and access to destroyed objects are outcomes | invariant of ownership per kind of object, preserved by every action; induction over the program |
| C166 | the same, with initialisation, deinitialisation, runs, pools of threads, temporary memory | invariant "every living network finds living objects and, once initialised, its own data and enough memory"; progress of each action |
| C167 | the same | the invariant of C166, followed through four actions |
| C168 | raw storage and function pointer of a handle kept apart; functors as types with size, alignment, triviality and a call that may change the state; refusal to compile and undefined behaviour are outcomes | simulation between the raw handle and its meaning, induction over the program |
| C169 | the same | the functor in the handle as a fold of the calls; two runs that differ in one handle |
| C170 | the same | the reference is preserved by every operation that does not replace it |
| C171 | `add_task` with its static assertion, temporaries that end with the full expression | case analysis on top of C169, C170 |
| C172 | `run`/`reduce` as a list of calls by the calling thread and the workers in any order | induction over the calls |
| C173 | tuple of addendums as a list of classes with a type number, options by index, lookup by type; calls as a list | invariant over the calls, specification by a fold over the calls |
| C174 | hiding and restoring of the last column around each addendum; classes compute arbitrary functions | induction over the tuple on top of C173 |
| C175 | initialisation of all members with any outcomes of allocations, clean-up on failure | induction over the tuple |
| C176 | kept matrices of the forward pass with their capacity, size and contents; hiding of biases, wrappers behind the gate; events in any order | invariant (room is there) over the events; one batch by induction over the tuple |
| C177 | `printf` conversions used by the observers as functions to lists of characters; a buffer too small is an abort | lengths by digit counts; contents by reading the digits back; lower bounds for huge losses |
| C178 | the same for the other messages | as C177 |
| C179 | names as lists of characters; identifier by recursion over the array with its terminating zero | last underscore is unique; induction over the names, base 256 |
| C180 | members of a timer, calls as a list | invariant over the calls against the list of durations |
| C181 | branches of `duration_readable` on exact numbers, texts of C177 | case distinction; digits read back and scaled |
| C182 | two sizes, assertions as failures | arithmetic |
| C183 | recursion over the index as in the templates, functor with any state | induction over the index: fold over the list |
| C184 | control register of each thread, ranges of C01, any order of the calls | cases on the flags; induction over events and calls |
| C185 | threshold and prepared labels of the evaluator, calls as a list | induction over the calls; reports of C30 with two thresholds |
| C186 | loops of the counters, reduction of C05 | sums of zeros and ones are counts |
| C187 | the network of C34–C37 over the reals; specification: the network as a function of a sample and a list of matrices | induction over the tree: the forward function of each layer object is the specified function row by row; history by the invariant of C34 |
| C188 | the same with the passes of C85; specification: partial derivatives (Mathlib `deriv`) of the mean loss as a function of the weights | the vector the optimiser is given pairs with every direction of weights to the derivative of the mean loss (C85); directions with one weight give partial derivatives |
| C189 | histories of uses; specification: a path of gradient descent over a list of batches | refinement by induction over the history; such a path has one end only |
| C190 | specification of C188 only | the derivative along minus the scaled gradient is minus a sum of squares; the sign of a derivative decides near 0 |
| C191 | the calls of `train()` (C25), the data object (C13) and the network (C189) put together: every call has an effect on the three; specification: orders of samples, their batches, paths of gradient descent | induction over the loop over epochs; C13 gives the order of each epoch; refinement of C189 with batches that look the same |
| C192 | the same network objects with arbitrary optimisers (any state, any function); specification: matrices with optimisers, one training step and histories of them | the refinement of C187 keeps the optimisers of all matrices (induction over the tree); induction over histories |
| C193 | the gradient works of C48–C52 as optimisers of C192; specification: momentum, Nesterov, Adam, RMSProp as rules for one weight | each call element by element; simulation of the state of the optimiser by the states of the rules; induction over histories |
| C194 | C191 and C192, C193 put together | what the network did in a training is a history of uses whose batches are those of shuffled epochs; C192 and C193 for this history |
| C195 | a textbook rule with one state for all nine types (`Sgd/AllSpec.lean`: method, momentum, gains, penalties) | the gradient works of the library follow it element by element (from the functional form of `apply_grad`), then C193 and C194 for networks with any mix of types |
| C196 | rules for matrices of weights with all settings (`Sgd/MatSpec.lean`): what is done before a forward pass, what is done with derivatives, limits for each neuron, masks, blocked calls, layers that are not trained | the gradient works follow the rule of their settings call by call; induction over histories, then over the epochs of `train()` |
| C197 | consequences of C196 for limits of lengths, blocked learning and untrained layers | the last call of each layer ends with the limit; induction over the path; witness for the shrinking of untrained layers |
| C198 | functions of a batch thinned with a draw, penalties, objectives (`Sgd/ExtSpec.lean`); the passes of `Pass.lex` inside of networks | by induction over trees the model of the layers is the thinned function and counts draws; C99 gives derivatives; induction over histories |
| C199 | the rules of C196 for any objectives (`Sgd/ExtMatSpec.lean`) | the optimisers follow the rules step by step; induction over the objectives of C198 |
| C200 | effects of the calls of `train()` on a network with dropout (`Sgd/ExtWholeModel.lean`) | the calls of C191 are uses of the network whose batches are those of shuffled epochs; induction over uses with the steps of C198, counting draws |
| C201 | the networks of C198 and the calls of C200, without conditions on derivatives | in a backward pass every optimiser of a trained layer gets one matrix (induction over packs); some linear objective has these as its derivatives, so the paths of C199 apply |
| C202 | the optimisers of C48 with any histories of calls | frame condition by stages; agreement of two runs at a set of indices that is closed under rows is kept by every stage |
| C203 | the networks, optimisers and calls of `train()` of C196 | the mean loss is invariant under permutations of rows; the rules of C196 have one result only, as far as weights and their memories exist |
| C204 | the networks of C187 | the mean loss is the mean of losses of single samples, and so are its derivatives; one application of C187 for each sample |
| C205 | the networks of C187 with settings of penalties | what optimisers are given (C192) plus the derivative of penalties weight by weight; derivatives of sums along single weights and along the step |
| C206 | as C205, and the calls of `train()` of C191 | the derivative the code adds is a subgradient of the penalty, the least one (unique where the penalty has a derivative, 0 at 0); inductions as in C191 |
| C207 | as C203, for batches of different sizes | the mean loss is the sum over the samples of share times loss, so batches with the same shares have the same derivatives; inductions as in C203 |
| C208 | the networks, optimisers and calls of `train()` of C196; symmetries as permutations of rows and columns that leave all answers as they are | derivatives of an invariant loss move with the weights, rules of optimisers too; so a moved path is a path, and rules have one result only (C203); neurons of fully connected layers by the functions of C187 |
| C209 | as C208, with permutations that leave the mean loss as it is when the batches are permuted too | as C208, with two batches in the place of one; for `train()` with the order of samples from C203 |
| C210 | the networks, optimisers and calls of `train()` of C196 | the mean loss does not depend on the weight, so its derivative is 0, and all methods keep a weight with zero derivative, velocity and running mean; for two networks the path of one with other weights of the feature is a path, and rules have one result only (C203) |
| C211 | the networks and optimisers of C196 | the mean loss and its derivatives are multiplied; the rules of both optimisers give the same for the multiplied derivatives, so the path of one network is a path of the other, and rules have one result only (C203) |
| C212 | the networks and optimisers of C196 | as C211; the running means of derivatives are multiplied by q and those of squares by q², and the quotient is the same: a path with memories multiplied in this way is a path of the other network |

## 5. Disagreements between code and property

Each entry names the theorem that exhibits it.

* C04. The destructor of the pool sets its stop flag without holding the mutex, so the notification can fall
  between a worker's test and its wait: `destroy_may_hang`.
* C09. `clone_to_no_bias` into a destination that emulated biases before leaves one column too many:
  `clone_to_no_bias_extra_column`.
* C10. Calling the base-class `resize` on a deformable matrix leaves the recorded maximum stale:
  `hidden_resize_breaks_deform`.
* C15. Walking over a set whose size leaves the rest 1 loses the last sample: `walk_loses_a_sample`.
* C16. Sets larger than the index type terminate the program instead of returning the documented error.
* C17. The question "initialised for training" answers wrongly for some sizes:
  `is_initialized4train_wrong_answer`.
* C23. With several producers the buffer can hand out more space than it has; data is then lost: `overclaim`,
  `overclaim_loses_data`.
* C24. Releasing nothing on a full buffer empties it: `zero_release_loses_data`.
* C25. The epoch stopped by the divergence check has no end event: `diverged_epoch_never_ends`.
* C26. A loss that is not a number is never noticed: `nan_loss_goes_unnoticed`.
* C27. Epochs outside of the plan are reported while the divergence check is on: `unflagged_epoch_is_reported`. A
  start epoch of zero writes before the vector: `flagsFrom_zero_start`.
* C28. Accepted batch sizes may still fail at initialisation: `accepted_sizes_may_not_initialise`.
* C29. The reported loss is the sum of batch means: `loss_depends_on_batching`.
* C30, C39. With equal maxima in a row, threading and batching decide which one is reported:
  `accuracy_depends_on_batching`, `argmax_depends_on_threading`.
* C31. More than 65536 layers share indices: `too_many_layers_share_indices`.
* C32. A field reaching outside of the incoming neurons is undefined behaviour in release builds:
  `field_outside_is_undefined`.
* C11. A matrix that used storage of the user and was moved from keeps the flag of external storage although it holds nothing
  (smatrix.h 399–426); giving it a size again ends the program (`Own.moved_from_external_stuck`), `clear` repairs it.
* C33. The forward memory of a layer inside a horizontal pack may be short while training is possible:
  `fprop_memory_may_be_short`.
* C36. A vertical pack with an untrained layer between trained ones hands the lowest layer a wrong gradient:
  `vertical_pack_with_stopping_layer_wrong`.
* C37. A trainable gate never receives its gradient: `gate_gradient_is_ignored`.
* C38. A block taken after `preinit` without `init` lies outside of the storage:
  `preinit_without_init_gives_block_outside`. Empty blocks escape the order check.
* C42. A zero count behind the first entry gives a wrong result: `clone_cols_zero_count_wrong`.
* C46. Aggregation loses values with ties or with a short first batch: `aggregation_loses_values_with_ties`,
  `aggregation_loses_values_with_free_places`.
* C49. A zero learning rate does not freeze the weights under momentum: `zero_rate_moves_weights`.
* C53. Dropout switched on after the batch size was announced works on matrices of the wrong size:
  `late_switch_fails`.
* C55. Naming layers by container drops earlier names in release builds: `release_drops_names`. A question after
  a reset reads outside of the vector: `question_after_reset`.
* C56. The constructor initialises nothing: `fresh_update_undefined`. Reducing into a later summand counts it
  wrongly: `reduce_into_summand`.
* C57. `set_default` has no return statement: `set_default_undefined`.
* C59. The last full mini-batch is skipped when the batch size divides the number of rows:
  `last_full_batch_skipped`; the announced number of batches then overstates: `announced_count_overstates`.
* C61. A failed inference initialisation is reported as initialised:
  `init4inference_failure_reports_initialised`.
* C66. A negative answer may still change its argument: `negative_answer_changes_argument`.
* C67. A second session with a smaller batch size keeps the old one: `second_session_uses_old_batch_size`.
* C68. Switching dropout of learning rates on after initialisation with Nesterov momentum aborts:
  `gw_option_switch_aborts`.
* C74. The transforming data source stores the measured central value as an offset although none was asked for:
  `transf_misses_target`.
* C75. Data that is already normalised is reported as a failure: `already_normalised_fails`.
* C76. The integer product in the correlation coefficient overflows at 800 samples: `mcc_overflows`.
* C77. In full batch mode the reported indices start before the vector: `reported_indices_full_batch`.
* C80. Cross entropy counts any positive answer as 1: `loss_xentropy_soft_answers`. The weighted losses test
  whether the activation exceeds the answer, not the boundary as described: `custom_not_as_described`.
* C81. The gradient of softmax is that of the loss only if the answers of a row add up to 1:
  `softmax_gradient_needs_distribution`. One weighted loss jumps where the activation equals the answer: `wRes_jump`.
* C82. Nothing checks that the incoming activations have biases when the gradient of the weights is calculated; without
  them the product reads behind the matrix: `weight_gradient_needs_bias`.
* C84. Nothing checks the layout; with samples in columns the penalty decorrelates samples: `layout_ignored`. The comment
  in `DeCov.h` has neither the square nor the division by the number of neurons less one.
* C85. A layer inside a pack of k tiles divides its gradient by the rows of all tiles, so its optimiser is given 1/k of the
  derivative of the mean loss: factor `tiles` in `single_weights`.
* C86. The mean losses of the batches are added up, not averaged (C29); the check of divergence compares the threshold with a value
  that grows with the number of forward passes needed: `reported_times_batches`, `reported_not_mean`, `diverged_iff`. A last single sample
  is left out: `last_sample_not_counted`.
* C87. The cached addendum is dropped only by the reports of `train()`, so a calculation started by a callback may use the one of
  old weights: `direct_call_stale`. Addenda switched on after initialisation are not reported: `late_addendum_ignored` (known
  to the authors).
* C90. `exec` raises `m_bGo2Waiting` only until it has published the function. A worker that has read its flag before and takes the lock after that
  goes over the tasks, and stays with a task that returns true, while `exec` waits (`exec_delayed_by_task`). The tasks of the library end by
  themselves when the buffers are full.
* C91. `if (bHas2Exec)` reads a plain `char` outside of the lock while `exec` may be writing it (`flag_race`).
  Besides, `win_condition_var::wait_for` with a predicate does not return when the time is over and the `cv_status` of the version without
  predicate is reversed; the workers rely on neither.
* C92. `mtx2Normal` treats a scale of zero as special and skips it; LSUV then reports a dead layer as normalised (`dead_layer_accepted`).
* C95. `actScaling` multiplies the offset of the biases (LsuvExt.h 326, 388). Activations follow the biases with the slope `c`, so the offset should be
  divided by `c`. Each try multiplies the error by `1 - c²` (`steep_never_centred`); the only coefficient in the library, 1.0507, still converges.
* C98. `Martens_SI` asserts only in a debug build that the previous layer is large enough (`martens_too_small`).
* C99. The gradients of penalties on activations are divided by the batch size with everything else (fully_connected.h: `dLdW` is scaled by
  1/batch), but `calcLossAddendum` sums over the batch and is added to the mean loss undivided (nnet.h 276–301), so the reported
  objective is not the one that is minimised unless the batch size is 1 (`reported_penalty_gradient_false`). Also seen while reading: in a gated pack
  `lossAddendum` covers the columns of the gate, its gradient does not; with `bAppendToNZGrad` the gradient is not the derivative of the value.
* C103. `gradcheck()` initialises the network again if the batch of the check is larger than the training batch size it is initialised for (nnet.h 335–349): the states of the
  optimisers are lost, later evaluations with larger batches exceed the largest batch size, and the destructor of the functor sets a batch size of 0 (an assertion in debug builds).
  `gradcheck_reinitialises`. `gc_deinit` leaves the index of the last checked layer set; the inspector is not active because its phase is the analytical one.
* C104. A correct derivative of exactly zero is rejected if the numeric one is not exactly zero (relative error 1): `correct_zero_derivative_rejected`. A NaN is accepted in builds without
  assertions, because `NaN > limit` is false (nnet.h 1092): `nan_accepted`; this happens for layers with learning rate zero, which never report `dL/dW`: `idle_layer_accepted`. Penalties on weights
  are in none of the compared values: `weight_penalties_not_checked`.
* C105. `gradcheck()` accepts data with exactly `max(batchSize, onlineBatchSize)` rows, but then initialises the feeder of batches without storage for mini-batches (nnet.h 784–790), and the
  smaller of the two batch sizes makes it write to an empty matrix: `gradcheck_full_batch_undefined`. Products of type `int` overflow for large layers: `checkA_overflow`.
* C106. The optimiser of a layer under a gate is given the average over the open rows, while the incoming gradient belongs to the mean over all rows (pack_horizontal_optional.h 345: the source asks
  "should we?" rescale): relative to the mean loss, its learning rate is multiplied with the batch size over the number of open rows, which changes from batch to batch
  (`gated_gradient_is_not_of_the_mean_loss`). The gate hands no gradient down although the pack shows its output; this is exact only for gates that are constant near the input (`gate_input_gets_no_gradient`).
* C108. `gen_vector(ptr, n, neg, pos)` multiplies with the rounded difference of the limits (afrand_mt.h): the result can exceed `pos` (`between_leaves_range_rounded`). `CStd::gen_vector_gtz` for integers can give the
  bound itself (`cstd_integers_reach_bound`); `gen_i` narrows its argument to 32 bits (`gen_i_too_big`); `CStd::gen_i` never exceeds `RAND_MAX`, so with the Microsoft library vectors longer than 32768 are not shuffled as a whole (`cstd_gen_i`).
* C109. Constructors take `s + thread` of a time stamp as seeds: objects made one second apart share streams (`adjacent_constructions_share_streams`); `reseed()` of a constructed object seeds the streams in another way than its constructor did (`reseed_of_constructed_differs`).
* C110. `gen_matrix_no_bias*` fill the first `numel_no_bias()` cells, which are not the cells without biases if there is a bias row (`gen_matrix_no_bias_row_wrong`).
* C111. `rng_helper::normal_vector` passes the length in place of the deviation (_i_rng.h 238): `helper_normal_vector_wrong`. `min()` of `CStd` is the smallest `int` while its numbers start at 0 (`cstd_canonical_stuck`).
* C113. `win_condition_var::wait_for` reports `timeout` if the sleep ended before the limit and `no_timeout` otherwise (_sync_primitives.h 287, 294); the versions with a predicate loop until the predicate holds, whatever the time (312, 328).
* C114. The destructor gives all threads of the pool the previous priority of the main thread (prioritize_workers.h 136–151).
* C116. `operator>>(smatrix&)` decides by the literal names `train_x`/`test_x` whether the last column is a bias column (matfile.h 574); `operator<<` writes the bias column of every matrix.
* C117. After an error inside a named struct, the incomplete struct is still written over the former variable (matfile.h 406–440).
* C118. `fill_data_no_bias` reads signed integer classes as unsigned ones (matlab.h 84–110).
* C120. `save_struct_begin` with `bUpdateIfExist` inside another struct takes the field's pointer; `save_struct_end` destroys and then stores it (matfile.h 195–199, 700–716, 737–776). For a 0×0 struct array it returns Success with a latched error. Any failure of reading is taken for "does not exist".
* C121. `_extract_value` for integral types calls `GetInt64`/`GetUint64` on any number (jsonreader.h 289–296).
* C123. `_members2ErrorCode` ignores its first argument (jsonreader.h 204–209): `Invalid..` codes are never reported.
* C124. `_impl_resize` stores the new size before it allocates and takes an equal size for success (smatrix.h 1054–1066).
* C125, C126. `absorbsion_will_succeed` and `replace_Y_will_succeed` (inmem_train_data_stor.h 176–200) compare `rows()` of samples and labels whatever the layout is, though tagged `#supportsBatchInRow`: they accept wrong numbers of transposed labels, and `dupe` refuses transposed data.
* C128. The comment at `evMulCAddC_ip` (mathn.h) says `sc*A - ofs`, the code adds `ofs`.
* C129. `evMul_ip_Anb`, `evAdd_Anb_ip` and `apply_dropout_mask` (also `make_dropout`) assume biases in the last column. No assertion forbids biases in the last row (samples in columns), and then elements of different places are combined and biases change.
* C130. `*pA++ = *pA > frac ? uBnd : lBnd` (mathn.h 290, similar in `make_alphaDropout` and `RProp`) reads a pointer the same expression changes: undefined in C++14 (README.md 3, 85), right only with the order C++17 prescribes.
* C131. `_isBinary` (smatrix.h 93–113), the assertion of `mrwOr`, accepts `-0` (against its own comment), and a row with `1` and `-0` gives `-1`. `vCountNonZeros` is documented to count zeros, it counts the others. `vCountNonZerosStrict` counts in an integer of the width of the type, which wraps at `2^32` elements of type `float`.
* C132. `mrwSetL2Norm` divides by the norm of the row; a row of zeros becomes not-a-number, no assertion guards it.
* C135. Asynchronous generator: buffers not larger than what the background threads but one may claim at once (`20 * threshold` numbers each) meet the case of C23.
* C136. `_AFRand_as::init_rng` (afrand_as.h 498–502) returns the result of the base class, which is always true, also after `AsynchRng::init_rng` has failed and the base class was deinitialised. The caller (nnet.h 399) cannot see it. The announced sizes stay multiplied by 3, and another call multiplies them again.
* C137. `AsynchRng::seed` (217–226) leaves the contents of the buffers and the state of the distribution objects, so the numbers after `seed(s)` depend on what the background threads had done before.
* C138. `train()` with a smaller `maxFpropSize` on a network initialised for inference of bigger batches makes the network anew for the smaller size, because the training batch size was 0 (nnet.h 363, 371). A later `doFixedBatchFprop` with the old size violates the assertion in `set_mode_and_batch_size`.
* C139. `doFixedBatchFprop` (nnet.h 709–721) changes the mode only if the batch size differs from the current one; after `train()` the current mode is the training one.
* C140. `fprop` or `init4fixedBatchFprop` with a bigger batch runs `deinit` and initialises for inference only (`batchSize` 0), so the next `train()` initialises again: momentum, RMS and individual learning rates start from zero. The announcements of the data object's `preinit_iMath` are dropped by `deinit` as well.
* C141. `init4fixedBatchFprop(td)` returns the error of `init4inference` without `_set_last_error` (nnet.h 694). `m_failedLayerIdx` is set to zero only by the next `_full_init`.
* C142. `is_initialized4inference` (_train_data_simple.h 130–137) answers yes to sizes smaller than the one the object was made for, `walk_over_set` with the default argument uses the latter. The network is made for the former.
* C143. The first step with Nadam sets `m_optGamma`, the setting of Radam, to zero for good (grad_works.h 495–497), because both kinds are computed by `RNadam`.
* C144. `m_Vw` is allocated by `gw_init` only if momentum is on at that moment (290–293), so momentum turned on between steps violates the assertion at 525 or an empty matrix at 376. The temporary memory for dropped updates of Nesterov momentum is asked for by the settings at initialisation (308–317); the comment calls changes at run time safe.
* C144, C51. `gw_init` calls `ILR_init` (303) before `set_common_data` (305); `ILR_init` with individual learning rates on calls `get_iMath()` (ILR.h 133–141), which dereferences the null pointer. They can't be used at all. `set_ILR` after initialisation leaves the gains unallocated.
* C146. `write_weights` (nnet.h 205–229) returns before the archive's destructor closes the file; errors of closing are dropped. It also writes layers that have no weights yet, as an empty matrix that cannot be read again.
* C147. `read_weights` stops at the first layer it cannot read and leaves the layers before with the new weights. `_LPT::serialize` (pack_tile.h 436–445) reads `m_tiles_count` whatever options are on and without any check, although numbers of neurons depend on it.
* C149. `walk_over_set` (transf_train_data.h 444–445) leaves out a remainder of one sample, like the in-memory object (C15); `next_subset` (458) takes the end of the set from the stored matrix while `walk_over_set` takes it from the transformer.
* C150. `init4inference` (transf_train_data.h 259–280) sets `m_maxFPropSize` before the transformer is initialised and does not take it back when that fails. `_base_init_checks` refuses a request before deinitialising. The casts of 267, 314 and 317 precede the check of the size.
* C151. `normalize_data` (_td_base.h 155–171) initialises for inference if the object isn't initialised for the requested batch size, and deinitialises afterwards, whatever it was initialised for before. `init4inference` cuts the size down to the biggest set, but the normaliser (_td_norm.h 303, 329) asks with the original one, and fails.
* C153. binfile.h 249-277 fills the destination while it reads: after an error behind the counts the object is neither clear nor usable, and the next `read` into it reports FailedToPreallocateSeqData, until `clear()`. (Reading into training data leaves the destination alone, C21.) `_prealloc_classes` (seq_data.h 144-157) catches exceptions but leaves as many counts as announced with fewer classes, which violates the assertions of `empty`, `is_clear` and `clear`. `sscanf_s` with `%d` (267) has undefined behaviour for a number that is no `int`; `totalElsToExpect` (245) is an `int` and overflows for 32769 classes of 65535 sequences. IncoherentMetaAndContent (279) cannot occur.
* C154. dumper.h 54-65: a negative number in the list of epochs is used as an index of `m_dumpEpochCond`. `CalcErrByEpochNum` (123-128) looks for -1 in this list (the error before the first epoch), so this setting cannot be used at all. Line 57 stores the default list: the number of the last epoch of the first training stays for later ones (also after `nnet::fprop` etc., which initialise the network for one epoch). `EpochNumWFirstNLastBatch` (110-114): in epoch 0 only the first batches count, so a training of one epoch does not write its last batch.
* C155. nnet.h 339-343, 362-367: an initialised network calls `init_nnet` of the inspector but not `init_layer`; `init_nnet` (dumper.h 403-420) clears the layers' names and the flags made from the black or white list. In a file of an error calculation over several chunks the struct of a layer is written once for each chunk, and only the last one stays. output.h 201: what the output layer reports as `dL/dA` is `data_y`.
* C156. `turn_off` (dumper.h 362-371) while a file is open: `train_preBprop` and `train_batchEnd` do nothing, the file stays open, and the next `_open_archive` fails and ends the program. `set_dir_to_dump` (378-392) accepts 250 characters, but the file name adds at least 16 to a buffer of 260.
* C158. `load` in fully_connected.h 335-341 and output.h 88-98 does not load `m_gradientWorks`, which `save` stores (and `_grad_works::serialize`, grad_works.h 222-254, stores neither `m_optGamma` nor `m_opts`). `AlphaDropout::_dropout_serialize` (alpha_dropout.h 80-90) asks `bDropout()` before the probability has been loaded; `m_mbDropVal` is not stored. The loader of matrices turns bias columns into ordinary ones (C116), so the activations of identity layers and tiles have one neuron more after loading. With all options, a dropout whose masks are empty is stored but cannot be loaded.
* C159. pack_tile.h 442 loads `m_tiles_count` whatever the options are and without a check against the inner layer; the sizes of `m_activations`, `m_dropoutMask`, `m_origActivations` are not checked.
* C160. `_isBinaryStrictNoBias` of a release version, called with samples in columns and biases, looks at biases and skips data (its assertion says so). The constants of `isAlmostBinary_eps` (smatrix.h 762-763) are below the distance of one to its neighbours: for them only one itself is near one.
* C161. `_isBinaryVecWLd` (smatrix.h 172) computes the end as `ptr + ne` but steps by `ld`, so `test_biases_holey` with samples in columns, marked `#supportsBatchInRow`, runs out of the storage unless the rows divide the columns, and checks `cols/rows` of the `cols` biases otherwise. (`_isBinaryStrictVecWLd` has the same end.)
* C162. `nans_no_bias` (1120-1126) clears `m_bHoleyBiases` without writing the biases; `nans` (1114-1117) writes NaNs to the biases; `copy_biases_from(ptr, countNonZeros)` believes the count, whose default is zero.
* C163. `smatrix::submatrix_cols_no_bias` (436-440) is marked `#supportsBatchInRow` but keeps the bias row, as an ordinary row; `smatrix_deform::submatrix_cols_no_bias` (1410-1415) drops `bBatchInRow`.
* C165. `nnet` has no copy constructor of its own and does not forbid copying (nnet.h 72-141, common_nn_data.h 277-352): destroying a copy and the original deletes their objects twice. `new(std::nothrow)` (308, 317, 326) is followed by assertions only.
* C166. `init_ithreads` (afrand_mt.h 98-104) keeps the first pool of a generator for ever. A generator of the user that was given to a network with its own mathematics refers to a destroyed pool afterwards; with assertions it cannot be given to another network at all. `deinit` of a network (nnet.h 503-514), called by the first run too, clears the temporary memory of a mathematics that may be shared (`shared_math_aborts`) and the layers' pointers that may belong to another network (`layers_without_data`).
* C168. `operator()` does not check the pointer (forwarder.h 130); `forwarder::assign` (227) hides `assign(nullptr_t)` of its base, `f = nullptr` does not compile; alignment of functors is not checked (142-151), `overaligned_functor`.
* C171. `add_task` (bgworkers.h 235-240) accepts a temporary exactly when it is kept by reference: the task refers to a functor that ends with the expression.
* C172. `_run`/`_reduce` assign `F` to the handle the workers use and call `F` itself in the calling thread (workers.h 180, 192, 238, 252): a functor of at most 16 bytes that changes itself is updated by one thread of the pool only, a larger one by all of them (`size_decides_sum`). `run` and `reduce` also need the functor copyable even if it is passed as an rvalue.
* C173. `addendumIgnoresBias<la_t>()` (loss_addendums.h 198, 215) looks the flag up by type: `same_type_shares_mode`. `L1(x)`, `L2(x)` (260-279) reset the flag: `setter_resets_mode`.
* C176. `late_switch_on`: `bEnabled()` is asked separately in the forward and in the backward pass. `order_matters`: `_appendGradient` looks at the element other addendums have already changed. `gate_in_value`: `lossAddendum` (extender.h 146) takes all activations, `_fprop4PA`/`_update_dLdA4PA` (229-241, 287-298) leave out the gate.
* C177. `exploding_loss_aborts`, `diverging_training_aborts`: `sprintf_s` into 128 characters with `%05.3f` (training_observer.h 283-300); nnet.h 641 prints before 642 checks for divergence.
* C179. `long_layer_name_aborts`: the limit of custom names is only asserted (_layer_base.h 478). `type_ids_collide`: `char` is signed (501).
* C180. `first_lost`: tictoc.h 82 takes a measurement for the first one if the number of repetitions is zero.
* C181. `long_seconds_wrong`, `hour_shown_wrong`: chrono.h 55-57.
* C182. `div_loses_training`: common.h 214 asserts divisibility of one size only.
* C185. `threshold_changed_after_init`: nnet_evaluator.h 99 changes the threshold but not the labels prepared by `init`; a network that answers exactly the truth is reported as wrong on the training set.
* C197. `frozen_layers_may_shrink`: `_on_fprop_in_training_mode` (fully_connected.h 399-401, output.h 168-170) does not ask `bUpdateWeights`, so `pre_training_fprop` (grad_works.h 339-390) normalises the rows of a layer that is not to be trained if it has Nesterov momentum and a limit of norms.

Observations made while reading that are not the subject of a theorem:

* `pack_tile.h` line 251 resizes the inner lower layer's activations to the biggest outgoing batch, not the
  incoming one.
* `RProp`, `ewBinarize` and `make_alphaDropout` modify and read the same object without sequencing before C++17.
* Serialisation of the gradient works omits the options and the accumulated gamma; that of alpha dropout omits the
  replacement value.
* `Nadam` overwrites the option it uses as an accumulator.
* C205: a tile pack averages the derivatives of the loss over its tiles (`pack_tile.h`, `_lfc_bprop` on the batch of all tiles) but adds the derivatives of the penalties of weights
  in full, while it reports these penalties once (220–224). So inside of tile packs weights are not moved along the derivatives of the reported loss; penalties weigh as many
  times more as there are tiles.
* A failed normalisation leaves the training set changed and the other sets unchanged.

## 6. Parts of the code that are modelled

| part of `/repo/nntl` | modelled in |
|---|---|
| `interface/threads/workers.h`, `parallel_range.h` (pool, partition, reduce) | `Threads` |
| `interface/math/smatrix.h`, `smatrix_deform`, triangular coordinates | `Matrix` |
| `interface/math/mathn.h`, `smath.h`: extraction, cloning, tiling, transposition, row max/sum/argmax | `Kernel` |
| `interface/math/mathn.h`: softmax | `Num` |
| `interface/math/mathn.h`: matrix products, covariance of columns | `Gemm` |
| `interface/math/smath.h`: operations on columns, sums over a triangle | `Cols` |
| `interface/math/mathn.h`: DeCov; `loss_addendum/DeCov.h` | `DeCov` |
| `activations/*`, their kernels, losses and output gradients in `interface/math/mathn.h`, `layer/output.h` (restriction of gradients) | `Act` |
| `interface/math/mathn.h`, `grad_works/*`: optimisers, momentum, gains, norm limits, addendums | `Grad` |
| `train_data/_td_base.h`, `inmem_train_data*.h`, `_train_data_simple.h`, `_td_norm.h`, `transf_train_data.h`, `utils/mtx2Normal.h` | `TrainData`, `Norm` |
| `_supp/io/binfile.h` | `BinFile` |
| `utils/data_buffer.h` | `DataBuf` |
| `interface/rng/afrand_as.h` | `AsRng` |
| `nnet.h`, `nnet_train_opts.h`, `nnet_evaluator.h` | `Train`, `Eval`, `Report` |
| `layers.h`, `layer/*pack*`, `layer/fully_connected.h`, `layer/output.h`, common layer data | `Layers`, `Pass`, `Backprop` |
| scratch storage of `interface/math/smath.h` and what `mathn.h` announces for it | `Istor` |
| `utils/*` (bwlist, confusion matrix, settings, mixins, data holder, conditions) | `Utils`, `Train` |
| `dropout/*` | `Dropout` |
| `interface/math/_mcwFindKOrdered_hlpr.h` | `KOrd` |
| `interface/threads/bgworkers.h` except for clocks, thread priorities and `tasks_count` | `BgWork` |
| `weights_init/*` | `WInit` |

* `Verif/Pass`: every object has a training and an inference mode; a network is switched when the mode or the batch size changes
  (`common_nn_data.h` 154–165), and all properties of passes are about histories with both modes.
* `Verif/WInit`: weights_init/LsuvExt.h completely (statistics as computed, over the reals, for chains; abstract for other networks), static.h except for the choice of the scale of the random numbers.

* Dropout and penalties in whole networks (C99): `Pass/LexModel.lean`, `Pass/Lex.lean`, `Backprop/LexSpec.lean`, `Backprop/Lex.lean`,
  `Backprop/LexProps.lean`. The random numbers of each pass are a parameter; kernels are elementwise (C53 for threads); the penalties are linked
  to the kernels by `l2_value` … `deCov_append`.

* Reproducibility (C100): `Pass/DetSpec.lean` (twins), `Pass/Det.lean`, `Pass/DetProps.lean`, `Backprop/Works.lean` (the gradient works of `Grad` as the
  optimiser of a layer; which parts of its state matter), `Backprop/ReproProps.lean`. This also joins the models of C48–C52 and C85/C99: in
  `extended_network_gradient` the optimiser may be `gradWorks`, and `gradWorks_apply` says that its step is the outcome of the modelled `apply_grad`.

* Calls of a layer (C101): `Calls/Model.lean` (the code), `Calls/Spec.lean`, `Calls/Lemmas.lean` and `Calls/Hidden.lean`, `Calls/Out.lean` (each call has one
  outcome), `Calls/Steps.lean` (refinement of the layers of `Pass`), `Calls/Props.lean`. This joins the models of C47, C48–C52, C78, C82 with C34, C85, C99
  and C100.

* Gradient check (C102–C105): `GradCheck/Model.lean` (inspector, layers by their calls, functor, `gradcheck()`), `GradCheck/Spec.lean` (trials, without inspector), `GradCheck/Insp.lean`, `GradCheck/Back.lean`
  (passes), `GradCheck/Trials.lean`, `GradCheck/Loop.lean` (one trial, the loops), `GradCheck/Props.lean` (C102, C103, C105), `GradCheck/Limit.lean` (C104), `GradCheck/Demo.lean`. The batches come from the model of C77. What the layers
  calculate are functions in this model; activations kept for the backward pass are recalculated instead of stored.

* Training behind gates (C106): `Backprop/OptSpec.lean` (the weights of an optional pack, open shares), `Backprop/Opt.lean`, `Backprop/OptProps.lean`, over the model of the pack in `Pass/OptModel.lean`.

* Random numbers (C107–C111): `Rng/Model.lean` (afrand_mt.h, afrand.h, cstd.h, distr_normal_naive.h, `rng_helper` of _i_rng.h), `Rng/Spec.lean`, `Rng/Lemmas.lean`, `Rng/FillProps.lean`, `Rng/RangeProps.lean`, `Rng/MatrixProps.lean`.
  The bit generators and `std::normal_distribution` are parameters; afrand_as.h is modelled in `AsRng`.

* Synchronisation and priorities (C112–C114): `Sync/Model.lean` (_sync_primitives.h: `spin_lock`, `win_condition_var::wait_for`, `_to_ms`; prioritize_workers.h), `Sync/Spec.lean`, `Sync/Props.lean`, `Sync/PrioProps.lean`.

* MATLAB archives (C115–C120): `MatFile/Model.lean` (matfile.h: `_matfile`; utils/matlab.h; serialization.h `nvp`, `named_struct`), `MatFile/ExModel.lean` (`_matfile_savingEx`), `MatFile/Spec.lean`, `MatFile/Lemmas.lean`, `MatFile/LoadLemmas.lean`, `MatFile/Props.lean`, `MatFile/ConvProps.lean`, `MatFile/ExProps.lean`. MATLAB's library is modelled by lookup and replacement in lists of named variables; enumerations and bit sets are left out.

* JSON reader (C121–C123): `JsonFile/Model.lean` (jsonreader.h; the text parser rapidjson is not modelled, a file is a JSON value), `JsonFile/Spec.lean`, `JsonFile/Lemmas.lean`, `JsonFile/Props.lean`. C124: `Matrix/RetryProps.lean`.

* In-memory train data (C125–C127): `TDStor/Model.lean` (inmem_train_data_stor.h, s_mTranspose_ip of mathn.h), `TDStor/Spec.lean`, `TDStor/Props.lean`.

* Element-wise operations (C128–C132): `EW/Model.lean`, `EW/Spec.lean`, `EW/Props.lean` (C128–C130), `EW/RowModel.lean`, `EW/RowProps.lean` (C131), `EW/NormProps.lean` (C132).

* Asynchronous generator (C133–C137): `DataBuf/AnyProps.lean` (C133), `AsRng/Model.lean`, `AsRng/Spec.lean`, `AsRng/Props.lean` (C134), `AsRng/FifoProps.lean` (C135, C136), `AsRng/SeedProps.lean` (C137).

* Life of a network object (C138–C142): `Session/Model.lean`, `Session/Spec.lean`, `Session/Lemmas.lean`, `Session/Cases.lean`, `Session/Props.lean` (C138–C141), `Session/DataProps.lean` (C142).

* Settings and memory of the optimiser (C143–C145): `Gw/Model.lean`, `Gw/Spec.lean`, `Gw/Props.lean`.

* Networks in files (C146, C147): `NetFile/Model.lean` (on top of `MatFile/Model.lean`), `NetFile/Spec.lean`, `NetFile/Lemmas.lean`, `NetFile/Any.lean`, `NetFile/Props.lean`, `NetFile/Wit.lean`.

* Transforming training data (C148–C151): `Ttd/Model.lean`, `Ttd/Spec.lean`, `Ttd/Lemmas.lean`, `Ttd/Props.lean`, `Ttd/Init.lean`, `Ttd/Wit.lean`. Transformers are user code: they are known by their two constants, the answers of `init` and the calls they get.

* Sequences for classification in binary files (C152, C153): `SeqFile/Model.lean`, `SeqFile/Spec.lean`, `SeqFile/Lemmas.lean`, `SeqFile/Props.lean`, `SeqFile/Reject.lean`. Fields are read by the model of C18-C21. Behaviour of the program as compiled with NDEBUG; `_prealloc_classes`' exceptions are a parameter.

* The dumper inspector (C154-C156): `Dumper/Model.lean`, `Dumper/Spec.lean`, `Dumper/Names.lean`, `Dumper/Conds.lean`, `Dumper/Passes.lean`, `Dumper/Session.lean`, `Dumper/Init.lean`, `Dumper/Props.lean`. The archive is the one of `MatFile/ExModel.lean`, the list of layers the one of `Utils/BwList.lean`. Whether the MAT-file library accepts the layers' names is part of the assumption that its functions succeed. `bSplitFiles` is true.

* Saving and loading a whole network (C157-C159): `NetState/Model.lean`, `NetState/Spec.lean`, `NetState/Save.lean`, `NetState/Load.lean`, `NetState/Props.lean`, `NetState/Wit.lean`. The archive is that of `MatFile/Model.lean`. Numbers are bit patterns; whether there is dropout (`m_dropoutPercentActive < 1`) is an arbitrary predicate on them. Not modelled: penalties and gating layers with state of their own, `LayerPackTile` with special data.

* Checks of matrices (C160-C164): `MtxTest/Float.lean`, `MtxTest/Model.lean`, `MtxTest/Spec.lean`, `MtxTest/Lemmas.lean`, `MtxTest/Props.lean`, `MtxTest/Flag.lean`, `MtxTest/View.lean`, `MtxTest/Wit.lean`. `MtxTest/Float.lean` states the IEEE-754 meaning of patterns of bits. Integral types are modelled as unsigned 64-bit numbers. Rounding of the one subtraction in `_isAlmostBinary` is a parameter (`Rounding`).

* Lifetimes (C165-C167): `Life/Model.lean`, `Life/Spec.lean`, `Life/Own.lean`, `Life/OwnInv.lean`, `Life/OwnRun.lean`, `Life/Safe.lean`, `Life/Props.lean`, `Life/Wit.lean`. Networks, mathematics, generators, inspectors and packs of layers are numbered objects; memory of destroyed objects is not used again. Of a run only the accesses to these objects are modelled, and the temporary memory as one number per pack of layers; failures of the initialisation of layers, null pointers of pointer type passed to the constructor, `m_pbNotLearningNow` and the reference `nnet::m_Layers` to destroyed layers in the destructor (it is not followed) are left out.

* Callable handles (C168-C172): `Fwd/Model.lean`, `Fwd/Spec.lean`, `Fwd/Lemmas.lean`, `Fwd/Props.lean`, `Fwd/Wit.lean`. Bytes of a functor are one state value; a trivially copied functor is copied by value. All handles of a program are instances of one template with one signature. `target<T>()`, comparison with `nullptr` (the same as `bool`), exception specifications, `simpleWrapper` over `std::function` and `forwarder::swap(forwarder&&)` (does not compile when used) are left out.

* Loss addendums (C173-C176): `LossAdd/Model.lean`, `LossAdd/Spec.lean`, `LossAdd/Reg.lean`, `LossAdd/Pab.lean`, `LossAdd/Wit.lean`. Rational numbers; arithmetic is exact. A call that does not compile is a failure. `preinit` of the math object and the temporary storage of DeCov are the subject of C38/C68, inspectors are left out.

* Texts (C177-C179): `Text/Model.lean`, `Text/Spec.lean`, `Text/Lemmas.lean`, `Text/Props.lean`, `Text/NameProps.lean`, `Text/Wit.lean`. Conversions `%d`, `%zd`, `% 3zd`, `%-3zd`, `%s`, `%w.pf`, `%0w.pf`; rounding of `%f` is to nearest, ties either way (a parameter). `sprintf_s` with a buffer too small calls the invalid parameter handler, which ends the program. `%g` is a parameter of up to 13 characters. Numbers are exact.

* Small tools (C180-C184): `Tools/Model.lean`, `Tools/Spec.lean`, `Tools/Props.lean`, `Tools/Wit.lean`. Exact numbers. The control word of `_controlfp_s` is that of x64, where the field for denormalized numbers is made of the two flags of the SSE register.

* Threshold of the evaluator, counters of equal elements (C185, C186): `Eval/ThrModel.lean`, `Eval/ThrProps.lean`.

* Training as gradient descent (C187–C190): `Sgd/Spec.lean` (networks as functions of weights, partial derivatives, gradient descent; nothing of the passes), `Sgd/Lemmas.lean`
  (the layer objects of `Pass` refine these functions, by induction over the tree), `Sgd/Net.lean`, `Sgd/Props.lean`, `Sgd/Cases.lean` (optimisers, losses, an example with all
  hypotheses met). Exact real arithmetic. Not included: optional packs, dropout, penalties, momentum and other optimisers, learning rates that change (C85, C99, C106 and C48–C52 give one
  step for these).

* Whole trainings (C191): `Sgd/WholeModel.lean` (effects of the calls of `Train.train` on data object and network; specification at the end), `Sgd/WholeLemmas.lean`, `Sgd/WholeProps.lean`,
  `Sgd/WholeCases.lean` (trainings exist for all sizes that fit; an example). Simplifications: reports and callbacks are any evaluations and any calls of the data object, not the exact
  ones of `nntl/nnet.h` 237–257; the number of batches of the loop is the one `on_next_epoch` returns.
* Training with any optimisers (C192, C193): `Sgd/AnySpec.lean` (specification: what optimisers are given, rules for one weight), `Sgd/AnyProps.lean`, `Sgd/AnyRules.lean` (networks whose
  optimisers follow rules), `Sgd/AnyOpts.lean` (the gradient works follow the rules), `Sgd/AnyCases.lean` (a network with Adam and falling learning rates, one with Nesterov's momentum). Whole
  trainings with them (C194): `Sgd/WholeAny.lean`, `Sgd/WholeAnyCases.lean`. All nine types with any momentum and gains
  (C195): `Sgd/AllSpec.lean`, `Sgd/AllOpts.lean`, `Sgd/AllProps.lean`, `Sgd/AllCases.lean`. Limits of norms, dropout of
  learning rates, blocked learning and untrained layers (C196, C197): `Sgd/MatSpec.lean`, `Sgd/MatLemmas.lean`, `Sgd/MatOpts.lean`, `Sgd/MatProps.lean`,
  `Sgd/MatCases.lean`. Dropout and penalties on activations (C198, C199): `Sgd/ExtSpec.lean`, `Sgd/ExtLemmas.lean`, `Sgd/ExtNet.lean`, `Sgd/ExtProps.lean`,
  `Sgd/ExtMatSpec.lean`, `Sgd/ExtMat.lean`, `Sgd/ExtMatProps.lean`, `Sgd/ExtCases.lean`. Whole calls of `train()` with them (C200): `Sgd/ExtWholeModel.lean`,
  `Sgd/ExtWholeLemmas.lean`, `Sgd/ExtWhole.lean`, `Sgd/ExtWholeCases.lean`. Where derivatives need not exist (C201): `Sgd/FreeLemmas.lean`,
  `Sgd/FreeProps.lean`, `Sgd/FreeCases.lean`. What optimisers touch (C202): `Grad/LocalProps.lean`.
  Orders of samples (C203, C204): `Sgd/OrderProps.lean`, `Sgd/OrderCases.lean`.
  Penalties of weights (C205, C206): `Sgd/PenProps.lean`, `Sgd/PenWhole.lean`, `Sgd/PenCases.lean`, `Sgd/SubProps.lean`, `Sgd/SubCases.lean`. Shares of samples (C207): `Sgd/ShareProps.lean`, `Sgd/ShareCases.lean`. Symmetries (C208): `Sgd/SymProps.lean`, `Sgd/SymNets.lean`, `Sgd/SymCases.lean`. Orders of features and outputs (C209): `Sgd/PermProps.lean`, `Sgd/PermCases.lean`, `Sgd/PermWholeCases.lean`. Unseen features (C210): `Sgd/UnseenProps.lean`, `Sgd/UnseenMore.lean`, `Sgd/UnseenCases.lean`, `Sgd/UnseenWholeCases.lean`. Scale of the loss (C211): `Sgd/ScaleProps.lean`, `Sgd/ScaleCases.lean`, `Sgd/ScaleWholeCases.lean`; for the Adam family (C212) `Sgd/ScaleMore.lean`, `Sgd/ScaleMoreCases.lean`.

## 7. Not modelled

Floating point rounding, NaN and infinities (unless a definition says otherwise), the inside of BLAS, of the MATLAB library and of rapidjson, SIMD, memory ordering
weaker than sequential consistency, file system failures other than short reads, boost
serialisation, the bit generators of random numbers (the code around them is the subject of C107–C111), performance.
