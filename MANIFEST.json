{
 "claims": [
  {
   "property": "C01",
   "status": "proved",
   "theorems": [
    "Nntl.Threads.run_processes_each_item_once",
    "Nntl.Threads.run_ranges_nonempty_in_bounds",
    "Nntl.Threads.run_ranges_balanced",
    "Nntl.Threads.run_tids",
    "Nntl.Threads.run_respects_useN"
   ],
   "note": "partition of the index range, all counts/thread requests"
  },
  {
   "property": "C02",
   "status": "proved",
   "theorems": [
    "Nntl.Threads.returned_call_executed_exactly",
    "Nntl.Threads.returned_call_processed_every_item_once",
    "Nntl.Threads.no_execution_outside_calls",
    "Nntl.Threads.running_call_executes_only_its_partition"
   ],
   "note": "transition system of the pool, all schedules incl. spurious wake-ups, shared and exclusive mutex"
  },
  {
   "property": "C03",
   "status": "proved",
   "theorems": [
    "Nntl.Threads.call_never_stuck",
    "Nntl.Threads.thread_steps_bounded",
    "Nntl.Threads.call_returns"
   ],
   "note": "deadlock freedom plus bounded number of thread steps"
  },
  {
   "property": "C04",
   "status": "partial",
   "theorems": [
    "Nntl.Threads.destroy_may_hang",
    "Nntl.Threads.destroy_terminates_partial",
    "Nntl.Threads.destroyed_pool_has_no_running_worker"
   ],
   "note": "the property is false of the code (lost wake-up in the destructor, proved as destroy_may_hang); termination is proved for the schedules without the lost wake-up"
  },
  {
   "property": "C05",
   "status": "proved",
   "theorems": [
    "Nntl.Threads.reduce_cache_complete",
    "Nntl.Threads.reduce_sum",
    "Nntl.Threads.reduce_result"
   ],
   "note": "over any commutative monoid; floating-point rounding is not modelled"
  },
  {
   "property": "C06",
   "status": "proved",
   "theorems": [
    "Nntl.Matrix.element_in_storage",
    "Nntl.Matrix.distinct_elements_distinct_cells",
    "Nntl.Matrix.every_cell_is_an_element",
    "Nntl.Matrix.set_get"
   ],
   "note": "column-major cells of one matrix"
  },
  {
   "property": "C07",
   "status": "proved",
   "theorems": [
    "Nntl.Matrix.constructed_biases",
    "Nntl.Matrix.resized_biases",
    "Nntl.Matrix.biases_stay_ones",
    "Nntl.Matrix.biases_ones_while_hidden"
   ],
   "note": "all histories of resize/write/zeros/ones/fill-from-array/copy/clone/deform/hide/restore; both layouts"
  },
  {
   "property": "C08",
   "status": "proved",
   "theorems": [
    "Nntl.Matrix.clone_to_equal",
    "Nntl.Matrix.clone_to_succeeds",
    "Nntl.Matrix.Own.clone_independent"
   ],
   "note": "values in the one-matrix model; independence in the shared-memory model with both objects managing their storage"
  },
  {
   "property": "C09",
   "status": "partial",
   "theorems": [
    "Nntl.Matrix.clone_to_no_bias_extra_column",
    "Nntl.Matrix.clone_to_no_bias_exact_partial"
   ],
   "note": "false of the code when a storage-managing destination emulated biases before (proved as clone_to_no_bias_extra_column); proved for all other destinations"
  },
  {
   "property": "C10",
   "status": "proved",
   "theorems": [
    "Nntl.Matrix.deform_stays_in_storage",
    "Nntl.Matrix.deform_keeps_data",
    "Nntl.Matrix.deform_batch_with_biases_keeps_data",
    "Nntl.Matrix.hide_restore_cols",
    "Nntl.Matrix.hide_restore_biases",
    "Nntl.Matrix.hide_restore_col",
    "Nntl.Matrix.transposition_twice",
    "Nntl.Matrix.hidden_resize_breaks_deform",
    "Nntl.Matrix.update_on_hidden_resize_ok",
    "Nntl.Matrix.resize_elements_then_deform"
   ],
   "note": "all histories of calls that respect the asserted preconditions"
  },
  {
   "property": "C100",
   "status": "proved",
   "theorems": [
    "Nntl.Backprop.training_is_reproducible",
    "Nntl.Backprop.evaluations_do_not_influence_training",
    "Nntl.Backprop.gradWorks_local",
    "Nntl.Backprop.gradWorks_pre",
    "Nntl.Backprop.gradWorks_apply",
    "Nntl.Backprop.fresh_twins",
    "Nntl.Pass.reproducible",
    "Nntl.Pass.reproducible_outputs",
    "Nntl.Pass.eval_leaves_twin",
    "Nntl.Pass.tree_det"
   ],
   "note": "reproducible holds for any arithmetic (also a rounded one with a fixed order of additions) and any optimiser that looks only at its matrices; training_is_reproducible puts in the optimisers of C48\u2013C52, whose result does not depend on threads. Each layer has its own sequence of random numbers; in the code the generator is shared, which gives each layer the same numbers in both networks because the training steps, and so the uses of the generator, are the same. Vertical, horizontal and tile packs; gated and optional packs are not covered."
  },
  {
   "property": "C101",
   "status": "proved",
   "theorems": [
    "Nntl.Calls.hidden_forward",
    "Nntl.Calls.hidden_backward",
    "Nntl.Calls.output_forward",
    "Nntl.Calls.output_backward",
    "Nntl.Calls.hidden_fprop",
    "Nntl.Calls.hidden_bprop",
    "Nntl.Calls.out_fprop",
    "Nntl.Calls.out_bprop"
   ],
   "note": "hidden_fprop \u2026 out_bprop say that the calls do to the memory what the layers of C34, C85, C99 and C100 (Pass.fc, Pass.outLayer with the optimiser gradWorks) do, so what is proved about networks of those holds for networks of these. Exact reals; inspectors and the checks for NaN are left out."
  },
  {
   "property": "C102",
   "status": "proved",
   "theorems": [
    "Nntl.GradCheck.gradcheck_verdict",
    "Nntl.GradCheck.gradcheck_refuses",
    "Nntl.GradCheck.counts_valid",
    "Nntl.GradCheck.demo_true",
    "Nntl.GradCheck.demo_false",
    "Nntl.GradCheck.amount_checked",
    "Nntl.GradCheck.analytical_fprop_keeps"
   ],
   "note": "For data of fitting sizes (C105) and counts in the range of int. What a trial compares is stated without the inspector: Trial.loss, Trial.num, Trial.an in Spec.lean."
  },
  {
   "property": "C103",
   "status": "partial",
   "theorems": [
    "Nntl.GradCheck.gradcheck_changes_nothing_partial",
    "Nntl.GradCheck.gradcheck_reinitialises",
    "Nntl.GradCheck.passes_twin"
   ],
   "note": "False if the network is not initialised for batches of the sizes of the check or has to be initialised again: gradcheck_reinitialises (optimisers start anew, largest batches are those of the check, the current batch size is 0). The random generator and the clock are left changed."
  },
  {
   "property": "C104",
   "status": "partial",
   "theorems": [
    "Nntl.GradCheck.compare_real",
    "Nntl.GradCheck.num_tendsto",
    "Nntl.GradCheck.correct_derivative_accepted_partial",
    "Nntl.GradCheck.wrong_derivative_rejected",
    "Nntl.GradCheck.zero_derivative_rejected",
    "Nntl.GradCheck.correct_zero_derivative_rejected",
    "Nntl.GradCheck.weight_penalties_not_checked",
    "Nntl.GradCheck.nan_accepted",
    "Nntl.GradCheck.idle_layer_accepted",
    "Nntl.GradCheck.line_example"
   ],
   "note": "Derivatives other than zero. False for zero (correct_zero_derivative_rejected: a correct derivative rejected for every step). Not seen by the check: penalties on weights (weight_penalties_not_checked), NaN and layers whose weights are not updated (nan_accepted, idle_layer_accepted; builds without assertions). Exact reals; that the layers calculate the derivative is C85, C99."
  },
  {
   "property": "C105",
   "status": "partial",
   "theorems": [
    "Nntl.GradCheck.gradcheck_defined_partial",
    "Nntl.GradCheck.gradcheck_full_batch_undefined",
    "Nntl.GradCheck.checkA_overflow"
   ],
   "note": "False if the batch has all rows of the data and the batch size for activations is smaller (the default 1): gradcheck_full_batch_undefined. False for layers so large that neurons times percentage exceeds int: checkA_overflow."
  },
  {
   "property": "C106",
   "status": "proved",
   "theorems": [
    "Nntl.Backprop.gated_training_step",
    "Nntl.Backprop.gated_pack_gradient",
    "Nntl.Backprop.binary_gate_flat",
    "Nntl.Backprop.idGate_flat",
    "Nntl.Backprop.gated_gradient_is_not_of_the_mean_loss",
    "Nntl.Backprop.gate_input_gets_no_gradient"
   ],
   "note": "Exact reals. gated_training_step: the pack is the lowest trained layer, its input does not move and nothing is asked from the gate. gated_pack_gradient: the pack anywhere, the gate constant near the input (binary_gate_flat: a binarising gate away from its threshold), fields that do not overlap. The expectation of C85 fails for gated layers: gated_gradient_is_not_of_the_mean_loss; a gate that passes its input on gets no gradient: gate_input_gets_no_gradient."
  },
  {
   "property": "C107",
   "status": "proved",
   "theorems": [
    "Nntl.Rng.fill_exact",
    "Nntl.Rng.fill_returns_iff",
    "Nntl.Rng.fill_never_outside",
    "Nntl.Rng.pieces_partition",
    "Nntl.Rng.fill_schedule_free",
    "Nntl.Rng.result_depends_on_number_of_threads"
   ],
   "note": "The bit generators are parameters. Depends on the partition of C01."
  },
  {
   "property": "C108",
   "status": "partial",
   "theorems": [
    "Nntl.Rng.vectors_in_range",
    "Nntl.Rng.symmetric_vector_in_range_rounded",
    "Nntl.Rng.gtz_integers_below",
    "Nntl.Rng.afrand_symmetric_in_range",
    "Nntl.Rng.cstd_in_range",
    "Nntl.Rng.gen_i_below",
    "Nntl.Rng.gen_i_too_big",
    "Nntl.Rng.cstd_gen_i",
    "Nntl.Rng.between_leaves_range_rounded",
    "Nntl.Rng.cstd_integers_reach_bound",
    "Nntl.Rng.bernoulli_follows_probability",
    "Nntl.Rng.ranges_covered_evenly",
    "Nntl.Rng.single_numbers"
   ],
   "note": "False of the code in part: with rounding gen_vector(neg, pos) can exceed pos (between_leaves_range_rounded); integers of CStd can equal the bound (cstd_integers_reach_bound); gen_i beyond 2^31 is negative or confined to a small range (gen_i_too_big, release build); CStd::gen_i never exceeds RAND_MAX. Everything else is proved in exact arithmetic, the symmetric range also with rounding."
  },
  {
   "property": "C109",
   "status": "partial",
   "theorems": [
    "Nntl.Rng.seed_sets_all_streams",
    "Nntl.Rng.seeded_streams_differ",
    "Nntl.Rng.seeded_calls_repeat",
    "Nntl.Rng.reseed_starts_over",
    "Nntl.Rng.construct_defined_iff",
    "Nntl.Rng.adjacent_constructions_share_streams",
    "Nntl.Rng.reseed_of_constructed_differs",
    "Nntl.Rng.seed64_fold"
   ],
   "note": "Proved after seed(). False of objects that were only constructed: two objects constructed one second apart share all streams but one (adjacent_constructions_share_streams), and reseed() of such an object does not restore its streams (reseed_of_constructed_differs). Distinctness of streams is assumed of the bit generator (injective initialisation)."
  },
  {
   "property": "C11",
   "status": "proved",
   "theorems": [
    "Nntl.Matrix.Own.released_at_most_once",
    "Nntl.Matrix.Own.nothing_leaked",
    "Nntl.Matrix.Own.released_exactly_once",
    "Nntl.Matrix.Own.managed_storage_is_live",
    "Nntl.Matrix.Own.move_hands_over",
    "Nntl.Matrix.Own.clear_empties",
    "Nntl.Matrix.Own.moved_from_external_stuck"
   ],
   "note": "any number of objects sharing one memory; useExternalStorage on the object's own block is excluded; moving hands everything over and empties the source, whose flag of external storage stays (moved_from_external_stuck)"
  },
  {
   "property": "C110",
   "status": "partial",
   "theorems": [
    "Nntl.Rng.gen_matrix_any_fills",
    "Nntl.Rng.gen_matrix_no_bias_fills_partial",
    "Nntl.Rng.gen_matrix_fills",
    "Nntl.Rng.gen_matrix_no_bias_row_wrong",
    "Nntl.Rng.loop_fills"
   ],
   "note": "gen_matrixAny: proved for both layouts. The _no_bias functions: proved for the default layout; false in a release build for matrices with a bias row (gen_matrix_no_bias_row_wrong; a debug build stops at an assertion)."
  },
  {
   "property": "C111",
   "status": "partial",
   "theorems": [
    "Nntl.Rng.mt_normal_vector",
    "Nntl.Rng.helper_normal_vector_partial",
    "Nntl.Rng.helper_normal_vector_wrong",
    "Nntl.Rng.canonical_unit",
    "Nntl.Rng.cstd_canonical_stuck"
   ],
   "note": "Proved for AFRand_mt. False of the generators of one thread (AFRand, CStd): the length of the vector is used as deviation (helper_normal_vector_partial, helper_normal_vector_wrong), and CStd feeds distributions with numbers confined to [1/2, 1/2 + (RAND_MAX+1)/2^32) (cstd_canonical_stuck)."
  },
  {
   "property": "C112",
   "status": "proved",
   "theorems": [
    "Nntl.Sync.spin_lock_excludes",
    "Nntl.Sync.spin_lock_serialises",
    "Nntl.Sync.spin_lock_free_is_taken",
    "Nntl.Sync.spin_lock_counter",
    "Nntl.Sync.spin_lock_starves"
   ],
   "note": "Sequentially consistent steps; the fences are not modelled further."
  },
  {
   "property": "C113",
   "status": "partial",
   "theorems": [
    "Nntl.Sync.timed_wait_returns",
    "Nntl.Sync.timed_wait_never_times_out",
    "Nntl.Sync.timed_wait_overdue",
    "Nntl.Sync.wait_status_inverted",
    "Nntl.Sync.sleep_length",
    "Nntl.Sync.sleep_length_extremes"
   ],
   "note": "False of the native condition variable: with a predicate the time limit has no effect (timed_wait_never_times_out, timed_wait_overdue), without one the status is inverted (wait_status_inverted), durations of 2^32 ms and more are cut (sleep_length_extremes). Proved: the call with a predicate returns exactly when the predicate is true at an evaluation, with true; a sleep is never longer than asked for, and less than 1 ms shorter below 2^32 ms."
  },
  {
   "property": "C114",
   "status": "partial",
   "theorems": [
    "Nntl.Sync.priorities_set",
    "Nntl.Sync.priorities_restored_partial",
    "Nntl.Sync.refused_request_undone",
    "Nntl.Sync.nested_priorities_restored",
    "Nntl.Sync.change_threads_priorities",
    "Nntl.Sync.pool_priority_lost"
   ],
   "note": "Worker threads are given the previous priority of the main thread, not their own (pool_priority_lost): the full property holds if they had the same priority. A second refused request while undoing is reported only; not covered."
  },
  {
   "property": "C115",
   "status": "proved",
   "theorems": [
    "Nntl.MatFile.saved_loads_back",
    "Nntl.MatFile.save_succeeds",
    "Nntl.MatFile.same_name_twice_lost"
   ],
   "note": "Hypothesis Regular: matrices named train_x/test_x have emulated biases, others do not (C116 shows why). same_name_twice_lost: two variables of the same name in one scope, the second replaces the first without an error. Enumerations and bit sets are not modelled."
  },
  {
   "property": "C116",
   "status": "partial",
   "theorems": [
    "Nntl.MatFile.loaded_as_its_name_says",
    "Nntl.MatFile.samples_without_biases_lose_column",
    "Nntl.MatFile.biases_become_data"
   ],
   "note": "False of the code: the loader decides by the name. loaded_as_its_name_says gives what is loaded in every case; samples_without_biases_lose_column: a matrix train_x without biases has its last column replaced by ones; biases_become_data: a matrix with biases under another name gets its bias column as data."
  },
  {
   "property": "C117",
   "status": "partial",
   "theorems": [
    "Nntl.MatFile.after_error_nothing_happens",
    "Nntl.MatFile.failed_save_partial",
    "Nntl.MatFile.failed_save_overwrites_with_incomplete",
    "Nntl.MatFile.pair_of_object_refused"
   ],
   "note": "False for structs: after a failure inside a struct the incomplete struct still replaces the former variable (failed_save_overwrites_with_incomplete). Proved: at most one variable of the file is affected, the one being saved when the error occurred; all before it are saved, all others are as before."
  },
  {
   "property": "C118",
   "status": "partial",
   "theorems": [
    "Nntl.MatFile.matrix_elements_converted_partial",
    "Nntl.MatFile.signed_elements_taken_for_unsigned",
    "Nntl.MatFile.negative_numbers_change",
    "Nntl.MatFile.wrong_variables_refused",
    "Nntl.MatFile.missing_field_refused"
   ],
   "note": "False for signed integers: they are read as unsigned ones (matlab.h 84-110), so int32 -1 becomes 4294967295 (negative_numbers_change). Proved for the same class, floating point, logical and unsigned classes."
  },
  {
   "property": "C119",
   "status": "proved",
   "theorems": [
    "Nntl.MatFile.open_refused",
    "Nntl.MatFile.open_result",
    "Nntl.MatFile.close_result"
   ],
   "note": "close() replaces an earlier error by its own result, Success included (close_result)."
  },
  {
   "property": "C12",
   "status": "proved",
   "theorems": [
    "Nntl.Matrix.upper_triangle_in_range",
    "Nntl.Matrix.upper_triangle_exactly_once",
    "Nntl.Matrix.lower_triangle_in_range",
    "Nntl.Matrix.lower_triangle_exactly_once"
   ],
   "note": "exact square root in place of the double-precision one"
  },
  {
   "property": "C120",
   "status": "partial",
   "theorems": [
    "Nntl.MatFile.structs_written_as_meant_partial",
    "Nntl.MatFile.by_hand_as_named_structs",
    "Nntl.MatFile.nested_update_is_undefined",
    "Nntl.MatFile.nested_update_reachable",
    "Nntl.MatFile.update_of_empty_kills_archive",
    "Nntl.MatFile.failed_read_loses_fields",
    "Nntl.MatFile.unmatched_calls_refused"
   ],
   "note": "False for an update inside another struct (the field is destroyed, then stored: undefined behaviour), for empty struct arrays (success is reported, the archive is in error) and if reading the former struct fails (its fields are lost without an error). Proved for all programs that update structs at the level of the file only, if no library call fails."
  },
  {
   "property": "C121",
   "status": "partial",
   "theorems": [
    "Nntl.JsonFile.json_matrix_read",
    "Nntl.JsonFile.json_matrix_refused",
    "Nntl.JsonFile.wrong_number_not_refused",
    "Nntl.JsonFile.read_again_after_no_memory",
    "Nntl.JsonFile.biases_for_used_matrix"
   ],
   "note": "Both directions proved if all numbers are numbers of the element type and the matrix has memory for what it shows. False otherwise: a number like 1.5 for an integral type fails an assertion of the parser instead of being refused; reading again after a failed allocation writes without memory (C124). Biases must be asked for with an empty matrix only (assertion of will_emulate_biases, biases_for_used_matrix)."
  },
  {
   "property": "C122",
   "status": "proved",
   "theorems": [
    "Nntl.JsonFile.json_train_data_read",
    "Nntl.JsonFile.json_train_data_refused"
   ],
   "note": "Hypothesis: all numbers are numbers of the element types (always so for floating point types). Arrays have fewer than 2^31 elements."
  },
  {
   "property": "C123",
   "status": "partial",
   "theorems": [
    "Nntl.JsonFile.json_error_meaning_partial",
    "Nntl.JsonFile.invalid_reported_as_missing"
   ],
   "note": "False of the code: _members2ErrorCode ignores its first argument, so an invalid member is reported as a missing one (invalid_reported_as_missing). The rest is proved."
  },
  {
   "property": "C124",
   "status": "partial",
   "theorems": [
    "Nntl.Matrix.resize_has_memory_partial",
    "Nntl.Matrix.retry_after_failed_resize",
    "Nntl.Matrix.sizes_without_biases"
   ],
   "note": "False of the code after a failed resize: the size is set before the allocation, and the next resize to the same size returns true without memory (retry_after_failed_resize). Proved for matrices with memory for what they show."
  },
  {
   "property": "C125",
   "status": "partial",
   "theorems": [
    "Nntl.TDStor.store_stays_coherent_partial",
    "Nntl.TDStor.transposed_labels_not_checked",
    "Nntl.TDStor.transposed_absorb_not_checked"
   ],
   "note": "Proved as long as labels and absorbed matrices have samples in rows. False otherwise: the functions, tagged #supportsBatchInRow, compare rows() whatever the layout is, so four transposed labels are accepted for three samples, and five transposed samples with seven labels are absorbed."
  },
  {
   "property": "C126",
   "status": "partial",
   "theorems": [
    "Nntl.TDStor.absorb_result",
    "Nntl.TDStor.extract_result",
    "Nntl.TDStor.assign_result",
    "Nntl.TDStor.replace_result",
    "Nntl.TDStor.dupe_result",
    "Nntl.TDStor.dupe_succeeds_partial",
    "Nntl.TDStor.transposed_not_duplicated"
   ],
   "note": "Proved for samples in rows. False for transposed data: dupe clones all four matrices and then refuses them (transposed_not_duplicated), as absorb compares rows of samples with rows of labels. The debug check of the biases in absorb is not modelled."
  },
  {
   "property": "C127",
   "status": "proved",
   "theorems": [
    "Nntl.TDStor.transposition_keeps_samples",
    "Nntl.TDStor.transposition_twice",
    "Nntl.TDStor.transposeX_result",
    "Nntl.TDStor.transposeY_result",
    "Nntl.TDStor.transpose_result"
   ],
   "note": "The BLAS routine imatcopy is taken by its specification."
  },
  {
   "property": "C128",
   "status": "proved",
   "theorems": [
    "Nntl.EW.scale_and_offset",
    "Nntl.EW.scale_and_offset_nb",
    "Nntl.EW.scale",
    "Nntl.EW.scale_nb",
    "Nntl.EW.offset",
    "Nntl.EW.offset_nb"
   ],
   "note": "No law of arithmetic is used, so rounding does not matter. The comment at evMulCAddC_ip speaks of sc*A - ofs, the code adds."
  },
  {
   "property": "C129",
   "status": "partial",
   "theorems": [
    "Nntl.EW.mul_elements",
    "Nntl.EW.add_elements",
    "Nntl.EW.sub_elements",
    "Nntl.EW.add_scaled",
    "Nntl.EW.add_scaled_nonzero",
    "Nntl.EW.add_scaled_sign",
    "Nntl.EW.add_scaled_sign_nonzero",
    "Nntl.EW.sign_elements",
    "Nntl.EW.square_elements",
    "Nntl.EW.abs_elements",
    "Nntl.EW.sub_into",
    "Nntl.EW.mul_elements_nb_partial",
    "Nntl.EW.add_elements_nb_partial",
    "Nntl.EW.dropout_mask_partial",
    "Nntl.EW.sub_and_scale",
    "Nntl.EW.one_complement",
    "Nntl.EW.clamp_elements",
    "Nntl.EW.nb_operations_wrong_with_bias_row"
   ],
   "note": "False of evMul_ip_Anb, evAdd_Anb_ip, apply_dropout_mask for samples in columns with biases: no assertion forbids them, elements of different rows are combined and biases are changed (nb_operations_wrong_with_bias_row). Proved for biases in the last column or none."
  },
  {
   "property": "C13",
   "status": "proved",
   "theorems": [
    "Nntl.TrainData.epoch_batches_are_distinct_samples",
    "Nntl.TrainData.epoch_available"
   ],
   "note": "all reachable states of the object, any permutation left by the shuffle, any thread split and write order"
  },
  {
   "property": "C130",
   "status": "partial",
   "theorems": [
    "Nntl.EW.binarize_partial",
    "Nntl.EW.binarize_left_first_wrong"
   ],
   "note": "The loop *pA++ = *pA > frac ? .. : .. has unspecified order, undefined behaviour in C++14, the language the library is written in. Proved for the order of C++17 (right side first); with the other order the result is wrong (binarize_left_first_wrong)."
  },
  {
   "property": "C131",
   "status": "partial",
   "theorems": [
    "Nntl.EW.row_or_partial",
    "Nntl.EW.row_or_returns",
    "Nntl.EW.row_or_wrong_with_negative_zero",
    "Nntl.EW.count_nonzeros",
    "Nntl.EW.count_nonzeros_strict_mod",
    "Nntl.EW.count_nonzeros_strict_partial",
    "Nntl.EW.count_strict_wraps",
    "Nntl.EW.sum_of_products",
    "Nntl.EW.row_or_wrong_with_negative_zero_double"
   ],
   "note": "OR: proved for elements 1 and +0. The assertion lets -0 pass, and 1 with -0 gives -1. Strict counter: proved below 2^w elements, w the bits of the type; it wraps beyond (count_strict_wraps). Sum of products in a ring: rounding is not modelled."
  },
  {
   "property": "C132",
   "status": "partial",
   "theorems": [
    "Nntl.EW.set_norm_partial",
    "Nntl.EW.set_norm_matrix_partial",
    "Nntl.EW.set_norm_zero_row",
    "Nntl.EW.set_norm_assertions"
   ],
   "note": "Proved for real numbers if no row is zero in the columns that count. A zero row is divided by zero: elements become not-a-number (set_norm_zero_row)."
  },
  {
   "property": "C133",
   "status": "proved",
   "theorems": [
    "Nntl.DataBuf.only_delivered_values"
   ],
   "note": "Holds in the histories where the buffer is not a queue any more (C23). Each operation is one step under the mutex; reading a number is not torn."
  },
  {
   "property": "C134",
   "status": "proved",
   "theorems": [
    "Nntl.AsRng.filling_calls_fill",
    "Nntl.AsRng.filling_calls_in_range",
    "Nntl.AsRng.temporary_memory"
   ],
   "note": "Numbers are elements of a field (no rounding). The bit generator and the standard normal deviates are parameters. Guarantees of the background threads (C88, C89) appear as conditions of steps."
  },
  {
   "property": "C135",
   "status": "partial",
   "theorems": [
    "Nntl.AsRng.numbers_used_once_in_order_partial",
    "Nntl.AsRng.demo_reach"
   ],
   "note": "Proved if all background threads but one cannot claim the whole buffer: (threads-1) * 20 * threshold < size. Otherwise more may be claimed than there is and numbers are lost (C23, DataBuf.overclaim_loses_data)."
  },
  {
   "property": "C136",
   "status": "partial",
   "theorems": [
    "Nntl.AsRng.init_prepares_partial",
    "Nntl.AsRng.init_protocol",
    "Nntl.AsRng.init_hides_failure"
   ],
   "note": "False: without memory init_rng returns true as well (init_hides_failure), so nnet never reports CantInitializeIRng, and sizes stay enlarged. Calls work all the same (C134)."
  },
  {
   "property": "C137",
   "status": "partial",
   "theorems": [
    "Nntl.AsRng.constructed_streams_differ",
    "Nntl.AsRng.seeding_threads",
    "Nntl.AsRng.seed_leaves_old_numbers"
   ],
   "note": "False: seed() leaves the numbers in the buffers that were made before it, so the results depend on the schedule (seed_leaves_old_numbers). Proved: all streams are seeded differently; seed() sets the stream of each background thread i to {s, i + number of synchronous threads}."
  },
  {
   "property": "C138",
   "status": "partial",
   "theorems": [
    "Nntl.Session.passes_fit",
    "Nntl.Session.promised_batches_accepted_partial",
    "Nntl.Session.training_revokes_promise"
   ],
   "note": "The first sentence is proved in full (passes_fit). The second is false if a training with smaller batches for forward passes comes between (training_revokes_promise); proved for all other calls."
  },
  {
   "property": "C139",
   "status": "partial",
   "theorems": [
    "Nntl.Session.inference_mode_partial",
    "Nntl.Session.fixed_pass_in_training_mode"
   ],
   "note": "False: doFixedBatchFprop right after train() with a batch of the training size stays in training mode (fixed_pass_in_training_mode). Proved for fprop and evaluations in all histories, for doFixedBatchFprop if no training came after the last call that sets inference mode."
  },
  {
   "property": "C14",
   "status": "proved",
   "theorems": [
    "Nntl.TrainData.batch_rows_aligned",
    "Nntl.TrainData.subset_rows_aligned"
   ],
   "note": "all reachable states"
  },
  {
   "property": "C140",
   "status": "partial",
   "theorems": [
    "Nntl.Session.evaluation_keeps_training_partial",
    "Nntl.Session.bigger_evaluation_resets_optimisers",
    "Nntl.Session.scratch_for_data_partial",
    "Nntl.Session.bigger_evaluation_takes_scratch"
   ],
   "note": "False for evaluations of batches larger than those the network was initialised for: the network is made anew for inference only, the optimiser state is lost, the next train() makes it again (bigger_evaluation_resets_optimisers), and the memory asked for by the data object is gone (bigger_evaluation_takes_scratch). Proved for batches up to the initialised size."
  },
  {
   "property": "C141",
   "status": "partial",
   "theorems": [
    "Nntl.Session.last_error_partial",
    "Nntl.Session.data_failure_not_recorded",
    "Nntl.Session.failed_layer_index",
    "Nntl.Session.failed_layer_index_is_stale"
   ],
   "note": "False: init4fixedBatchFprop(td) does not record an error of the data object (data_failure_not_recorded); the index of the failed layer is not reset by failures outside of layers (failed_layer_index_is_stale). Proved for all other calls; failed_layer_index: an error of a layer is shown with the index of the layer that has failed in that call."
  },
  {
   "property": "C142",
   "status": "partial",
   "theorems": [
    "Nntl.Session.fixed_walk_fits_partial",
    "Nntl.Session.train_walk_fits",
    "Nntl.Session.walk_overflows_network"
   ],
   "note": "False if td had been initialised for bigger batches before (walk_overflows_network). Proved for td not initialised for inference or initialised for exactly the size asked for, and for train() that initialises td (the default of bForceReinitTD)."
  },
  {
   "property": "C143",
   "status": "partial",
   "theorems": [
    "Nntl.Gw.settings_as_asked",
    "Nntl.Gw.gamma_as_asked_partial",
    "Nntl.Gw.nadam_forgets_gamma"
   ],
   "note": "Proved for all settings but gamma. Gamma: false once Nadam has made a step, which sets the variable to zero for its own use of RNadam (nadam_forgets_gamma); proved without Nadam."
  },
  {
   "property": "C144",
   "status": "partial",
   "theorems": [
    "Nntl.Gw.init_never_fails_partial",
    "Nntl.Gw.steps_never_fail_partial",
    "Nntl.Gw.momentum_cannot_be_turned_on",
    "Nntl.Gw.dropout_cannot_be_turned_on",
    "Nntl.Gw.individual_rates_cannot_be_initialised",
    "Nntl.Gw.individual_rates_never_work"
   ],
   "note": "False: momentum turned on after initialisation (momentum_cannot_be_turned_on), dropout of updates turned on after initialisation with Nesterov momentum (dropout_cannot_be_turned_on, called safe by a comment), individual learning rates at any time (individual_rates_cannot_be_initialised: null pointer; individual_rates_never_work). Proved if at each step the kind of the optimiser is that of the initialisation and the settings need no more memory than at the initialisation; all other changes are allowed at any time."
  },
  {
   "property": "C145",
   "status": "partial",
   "theorems": [
    "Nntl.Gw.new_beginning_partial",
    "Nntl.Gw.moments_of_all_steps"
   ],
   "note": "new_beginning_partial misses Nadam, which forgets gamma (C143). moments_of_all_steps is for a kind of optimiser that does not change between the steps."
  },
  {
   "property": "C146",
   "status": "partial",
   "theorems": [
    "Nntl.NetFile.weights_survive",
    "Nntl.NetFile.write_succeeds",
    "Nntl.NetFile.names_differ",
    "Nntl.NetFile.true_but_lost",
    "Nntl.NetFile.uninitialised_written"
   ],
   "note": "weights_survive needs that the file was closed without an error: write_weights does not look at that (true_but_lost). Why weights must be initialised: uninitialised_written."
  },
  {
   "property": "C147",
   "status": "partial",
   "theorems": [
    "Nntl.NetFile.read_any",
    "Nntl.NetFile.stays_usable",
    "Nntl.NetFile.read_up_to",
    "Nntl.NetFile.false_but_overwritten",
    "Nntl.NetFile.tiles_overwritten"
   ],
   "note": "False: after false the layers before the failure have got weights from the file (false_but_overwritten; read_up_to says exactly which), and the number of tiles of a tiled layer is taken from the file (tiles_overwritten). All else is proved."
  },
  {
   "property": "C148",
   "status": "proved",
   "theorems": [
    "Nntl.Ttd.epoch_uses_distinct_samples",
    "Nntl.Ttd.epoch_available",
    "Nntl.Ttd.batch_in_range"
   ],
   "note": "For numbers of samples that fit into a matrix. Whatever random_shuffle does is an arbitrary permutation."
  },
  {
   "property": "C149",
   "status": "partial",
   "theorems": [
    "Nntl.Ttd.walk_visits_all_partial",
    "Nntl.Ttd.walk_misses_last",
    "Nntl.Ttd.walk_available",
    "Nntl.Ttd.walk_beyond_count",
    "Nntl.Ttd.walk_aborts"
   ],
   "note": "False: with one sample per base sample a remainder of one sample is left out (walk_misses_last), and a transformer that does not count the stored rows is asked for samples beyond its count (walk_beyond_count) or the program is aborted (walk_aborts). True otherwise."
  },
  {
   "property": "C15",
   "status": "partial",
   "theorems": [
    "Nntl.TrainData.walk_loses_a_sample",
    "Nntl.TrainData.walk_misses_last_sample",
    "Nntl.TrainData.walk_visits_all_partial",
    "Nntl.TrainData.walk_visits"
   ],
   "note": "false of the code if size mod batch is one; proved for every other residue"
  },
  {
   "property": "C150",
   "status": "partial",
   "theorems": [
    "Nntl.Ttd.train_sizes",
    "Nntl.Ttd.train_succeeds_iff",
    "Nntl.Ttd.inference_sizes",
    "Nntl.Ttd.train_error_partial",
    "Nntl.Ttd.inference_error_partial",
    "Nntl.Ttd.bad_request_keeps_old",
    "Nntl.Ttd.refused_but_initialised",
    "Nntl.Ttd.wrapped_size_accepted"
   ],
   "note": "False: a refused request leaves an earlier initialisation in force (bad_request_keeps_old); when the transformer refuses its initialisation for inference the object presents itself as initialised (refused_but_initialised); the size is cut to 32 bits before it is checked (wrapped_size_accepted)."
  },
  {
   "property": "C151",
   "status": "partial",
   "theorems": [
    "Nntl.Ttd.normalisation_kept",
    "Nntl.Ttd.normalising_keeps_init_partial",
    "Nntl.Ttd.normalising_uninitialises",
    "Nntl.Ttd.normalising_loses_training",
    "Nntl.Ttd.normalising_too_big_fails"
   ],
   "note": "False: a normalisation with a batch size the object is not initialised for re-initialises and then deinitialises it (normalising_uninitialises, normalising_loses_training); a batch size above the number of samples makes it fail (normalising_too_big_fails)."
  },
  {
   "property": "C152",
   "status": "proved",
   "theorems": [
    "Nntl.SeqFile.seq_round_trip",
    "Nntl.SeqFile.truncated_sequences_rejected"
   ],
   "note": "Bytes of elements are kept or passed to an arbitrary conversion. Names: c, number of the class from 1, then anything that does not begin with a digit."
  },
  {
   "property": "C153",
   "status": "partial",
   "theorems": [
    "Nntl.SeqFile.successful_read_full",
    "Nntl.SeqFile.bad_header_rejected",
    "Nntl.SeqFile.nameless_sequence_rejected",
    "Nntl.SeqFile.excess_sequence_rejected",
    "Nntl.SeqFile.occupied_object_kept",
    "Nntl.SeqFile.incoherent_content_never",
    "Nntl.SeqFile.read_after_clear",
    "Nntl.SeqFile.failed_read_occupies",
    "Nntl.SeqFile.failed_preallocation_inconsistent",
    "Nntl.SeqFile.class_number_too_big_ub",
    "Nntl.SeqFile.too_many_sequences_ub"
   ],
   "note": "True of successful readings, of malformed headers, names and counts (rejected with the right error), and of occupied objects. False: a failed reading leaves a clear object occupied and later readings fail until clear() (failed_read_occupies); lack of memory leaves it inconsistent (failed_preallocation_inconsistent); two kinds of files make the behaviour undefined (class_number_too_big_ub, too_many_sequences_ub)."
  },
  {
   "property": "C154",
   "status": "partial",
   "theorems": [
    "Nntl.Dumper.training_files",
    "Nntl.Dumper.names_fit",
    "Nntl.Dumper.batch_file",
    "Nntl.Dumper.err_file",
    "Nntl.Dumper.only_wanted",
    "Nntl.Dumper.names_differ",
    "Nntl.Dumper.demo",
    "Nntl.Dumper.negative_epoch",
    "Nntl.Dumper.default_epoch_sticks"
   ],
   "note": "True for lists of epochs without negative numbers, for the first training with a condition object. False: -1, meant for the error before the first epoch, makes the behaviour undefined (negative_epoch); the default list is fixed by the first training (default_epoch_sticks). The MAT-file functions are assumed to succeed."
  },
  {
   "property": "C155",
   "status": "partial",
   "theorems": [
    "Nntl.Dumper.training_files",
    "Nntl.Dumper.file_variables",
    "Nntl.Dumper.only_allowed",
    "Nntl.Dumper.every_allowed",
    "Nntl.Dumper.forbidden_absent",
    "Nntl.Dumper.demo",
    "Nntl.Dumper.retraining_forgets"
   ],
   "note": "True of trainings in which the layers are initialised. False of a further training of an initialised network: names and lists of layers are forgotten (retraining_forgets)."
  },
  {
   "property": "C156",
   "status": "partial",
   "theorems": [
    "Nntl.Dumper.off_writes_nothing",
    "Nntl.Dumper.turned_off_inside",
    "Nntl.Dumper.long_directory",
    "Nntl.Dumper.note_outside"
   ],
   "note": "The first part is true. False: turned off inside of a batch that is being written and on again, the program ends at the next wanted batch (turned_off_inside); names of 244 to 250 characters are accepted but cannot be used (long_directory)."
  },
  {
   "property": "C157",
   "status": "proved",
   "theorems": [
    "Nntl.NetState.saved_contains",
    "Nntl.NetState.saving_succeeds"
   ],
   "note": ""
  },
  {
   "property": "C158",
   "status": "partial",
   "theorems": [
    "Nntl.NetState.loaded_is_saved",
    "Nntl.NetState.optimiser_never_loaded",
    "Nntl.NetState.optimiser_lost",
    "Nntl.NetState.alpha_lost",
    "Nntl.NetState.biases_lost",
    "Nntl.NetState.new_dropout_refused"
   ],
   "note": "loaded_is_saved says exactly what is restored and when loading succeeds. The property as stated is false: the optimiser is saved but never loaded (optimiser_lost), so training cannot be resumed; coefficients of alpha-dropout are loaded only if dropout was on before (alpha_lost); bias columns of activations become ordinary columns (biases_lost); a network with dropout that was saved before its first use cannot be loaded with all options (new_dropout_refused)."
  },
  {
   "property": "C159",
   "status": "proved",
   "theorems": [
    "Nntl.NetState.load_governed",
    "Nntl.NetState.optimiser_never_loaded",
    "Nntl.NetState.sizes_not_checked",
    "Nntl.NetState.tiles_not_governed"
   ],
   "note": "The number of tiles is loaded whatever the options are (tiles_not_governed); activations and masks of any size are accepted (sizes_not_checked)."
  },
  {
   "property": "C16",
   "status": "proved",
   "theorems": [
    "Nntl.TrainData.init4train_success",
    "Nntl.TrainData.init4train_failure",
    "Nntl.TrainData.init4train_error_code",
    "Nntl.TrainData.coherence_asserted"
   ],
   "note": "training initialisation; sets larger than vec_len_t terminate the program instead of returning an error (see DESIGN.md)"
  },
  {
   "property": "C160",
   "status": "proved",
   "theorems": [
    "Nntl.MtxTest.binary_tells",
    "Nntl.MtxTest.binary_strict_tells",
    "Nntl.MtxTest.binary_strict_no_bias_tells",
    "Nntl.MtxTest.almost_binary_tells",
    "Nntl.MtxTest.no_nans_tells",
    "Nntl.MtxTest.Wit.strict_no_bias_wrong",
    "Nntl.MtxTest.Wit.almost_refuses_neighbour",
    "Nntl.MtxTest.Wit.nans_fills"
   ],
   "note": "_isBinaryStrictNoBias for its documented precondition (samples in rows if there are biases); outside it the answer of a release version is wrong (strict_no_bias_wrong)."
  },
  {
   "property": "C161",
   "status": "partial",
   "theorems": [
    "Nntl.MtxTest.biases_strict_tells",
    "Nntl.MtxTest.biases_holey_tells_partial",
    "Nntl.MtxTest.biases_ok_tells_partial",
    "Nntl.MtxTest.if_biases_tells",
    "Nntl.MtxTest.holey_columns_never_answers",
    "Nntl.MtxTest.holey_columns_few_checked",
    "Nntl.MtxTest.Wit.holey_columns_wrong"
   ],
   "note": "False for the flag of holey biases with samples in columns: the loop of _isBinaryVecWLd ends at ptr + cols instead of ptr + cols*ld. It never ends unless the rows divide the columns, and otherwise checks only the first cols/rows biases (both proved for all sizes). Proved for everything else."
  },
  {
   "property": "C162",
   "status": "partial",
   "theorems": [
    "Nntl.MtxTest.biases_copied",
    "Nntl.MtxTest.biases_copied_from_matrix",
    "Nntl.MtxTest.flag_stays_true_partial",
    "Nntl.MtxTest.check_accepts_partial",
    "Nntl.MtxTest.Wit.nans_no_bias_loses_flag",
    "Nntl.MtxTest.Wit.nans_overwrites_biases",
    "Nntl.MtxTest.Wit.count_is_believed"
   ],
   "note": "The invariant needs a caller that counts right for copy_biases_from(ptr, n), copies from matrices whose flag is right, takes the flag away only if all biases are ones, and does not call nans_no_bias for a matrix with the flag (HOp.fair). Without this it is false: nans_no_bias clears the flag and leaves the biases, nans overwrites them, the count is believed."
  },
  {
   "property": "C163",
   "status": "partial",
   "theorems": [
    "Nntl.MtxTest.submatrix_shows_partial",
    "Nntl.MtxTest.submatrix_def_shows",
    "Nntl.MtxTest.use_storage_cols_shows",
    "Nntl.MtxTest.use_storage_no_bias_shows",
    "Nntl.MtxTest.use_storage_shows",
    "Nntl.MtxTest.writes_keep_biases",
    "Nntl.MtxTest.Wit.submatrix_shows_biases",
    "Nntl.MtxTest.Wit.submatrix_forgets_layout"
   ],
   "note": "smatrix::submatrix_cols_no_bias, marked as supporting both layouts, hands out the bias row of a matrix with samples in columns (submatrix_shows_biases); the one of smatrix_deform does not hand on the layout (submatrix_forgets_layout)."
  },
  {
   "property": "C164",
   "status": "proved",
   "theorems": [
    "Nntl.MtxTest.orthogonal_tells",
    "Nntl.MtxTest.orthogonal_nans"
   ],
   "note": "Exact arithmetic; gemm as specified in C82. Products that are NaNs count as right (orthogonal_nans)."
  },
  {
   "property": "C165",
   "status": "partial",
   "theorems": [
    "Nntl.Life.lifetimes_partial",
    "Nntl.Life.destructor_ends",
    "Nntl.Life.construct_tells",
    "Nntl.Life.copy_destroys_twice",
    "Nntl.Life.copy_uses_the_destroyed",
    "Nntl.Life.lack_of_memory"
   ],
   "note": "For programs that do not copy networks. The compiler generates a copy constructor of nnet; a copy destroys the objects of the original a second time (copy_destroys_twice). Without memory for an object the constructor of a release version goes through a null pointer (lack_of_memory)."
  },
  {
   "property": "C166",
   "status": "proved",
   "theorems": [
    "Nntl.Life.careful_is_safe",
    "Nntl.Life.generator_dangles",
    "Nntl.Life.generator_not_reusable",
    "Nntl.Life.generator_with_pool",
    "Nntl.Life.layers_of_another",
    "Nntl.Life.layers_dangle",
    "Nntl.Life.layers_without_data",
    "Nntl.Life.shared_math_aborts",
    "Nntl.Life.shared_math_deinit_aborts",
    "Nntl.Life.shared_math_by_chance",
    "Nntl.Life.one_careful"
   ],
   "note": "Each rule is needed: the witnesses show programs that break one of them and end in undefined behaviour or std::abort. A generator with threads of the user stays attached to the pool of the first network that made its own mathematics."
  },
  {
   "property": "C167",
   "status": "proved",
   "theorems": [
    "Nntl.Life.layers_reused"
   ],
   "note": "The destructor of nnet does not deinitialise the layers; the first call of the new network does."
  },
  {
   "property": "C168",
   "status": "proved",
   "theorems": [
    "Nntl.Fwd.handles_are_values",
    "Nntl.Fwd.storage_fits",
    "Nntl.Fwd.empty_and_null",
    "Nntl.Fwd.overaligned_functor"
   ],
   "note": "Calling an empty handle is undefined (the assert is commented out); forwarder, unlike cmcforwarder, cannot be assigned nullptr; a functor aligned stricter than the storage passes the static assertions."
  },
  {
   "property": "C169",
   "status": "proved",
   "theorems": [
    "Nntl.Fwd.kept_copy",
    "Nntl.Fwd.copy_is_private"
   ],
   "note": ""
  },
  {
   "property": "C17",
   "status": "partial",
   "theorems": [
    "Nntl.TrainData.is_initialized4train_wrong_answer",
    "Nntl.TrainData.is_initialized4train_iff_partial"
   ],
   "note": "false of the code; the exact condition under which the answer is right is proved"
  },
  {
   "property": "C170",
   "status": "proved",
   "theorems": [
    "Nntl.Fwd.kept_reference",
    "Nntl.Fwd.dangling_reference",
    "Nntl.Fwd.address_reused"
   ],
   "note": ""
  },
  {
   "property": "C171",
   "status": "partial",
   "theorems": [
    "Nntl.Fwd.task_keeps_copy",
    "Nntl.Fwd.temporary_tasks",
    "Nntl.Fwd.temporary_task_dangles"
   ],
   "note": "Holds for small lvalue functors (and for large lvalues by C170 while they live). False for large temporaries: the static assertion accepts the reference wrapper made of the temporary, and the task dangles as soon as add_task returns; small temporaries, which could have been kept, are what it refuses."
  },
  {
   "property": "C172",
   "status": "partial",
   "theorems": [
    "Nntl.Fwd.run_constant_functor",
    "Nntl.Fwd.run_shares_big",
    "Nntl.Fwd.run_splits_small",
    "Nntl.Fwd.size_decides_sum"
   ],
   "note": "Holds for functors whose calls do not change them (any size) and for functors larger than two pointers. A functor of at most two pointers is split: the calling thread calls the user's object, all workers call one copy that is then forgotten. Calls are indivisible steps here; real concurrent calls of one functor that changes itself are data races."
  },
  {
   "property": "C173",
   "status": "partial",
   "theorems": [
    "Nntl.LossAdd.settings_last",
    "Nntl.LossAdd.settings_accepted",
    "Nntl.LossAdd.has_addendum",
    "Nntl.LossAdd.setter_resets_mode",
    "Nntl.LossAdd.same_type_shares_mode"
   ],
   "note": "Proved for tuples without repeated types. False for a type that occurs twice (the comments ask not to do that, nothing refuses it): the treatment of biases is looked up by type. L1(x)/L2(x) called for a new scale also set the treatment of biases back to the default."
  },
  {
   "property": "C174",
   "status": "proved",
   "theorems": [
    "Nntl.LossAdd.loss_value",
    "Nntl.LossAdd.loss_gradient",
    "Nntl.LossAdd.loss_gradient_sum",
    "Nntl.LossAdd.demo_reg"
   ],
   "note": "Exact rational arithmetic; what a class computes of a matrix is a parameter (L1, L2: C60, DeCov: C84)."
  },
  {
   "property": "C175",
   "status": "proved",
   "theorems": [
    "Nntl.LossAdd.init_succeeds",
    "Nntl.LossAdd.init_effects",
    "Nntl.LossAdd.demo_init"
   ],
   "note": ""
  },
  {
   "property": "C176",
   "status": "partial",
   "theorems": [
    "Nntl.LossAdd.batch_after_history",
    "Nntl.LossAdd.zero_stays",
    "Nntl.LossAdd.penalty_value",
    "Nntl.LossAdd.local_L1_L2",
    "Nntl.LossAdd.demo_batch",
    "Nntl.LossAdd.late_switch_on",
    "Nntl.LossAdd.order_matters",
    "Nntl.LossAdd.gate_in_value"
   ],
   "note": "Proved for settings between batches (batch_after_history). False: an addendum calculated in the forward pass that is switched on between the passes of a batch uses memory never written or another batch (late_switch_on); an addendum for non-zero gradients only that follows another addendum changes elements that were zero (order_matters; zero_stays is the true part); in a gated pack the reported penalty includes the gate, the gradient does not (gate_in_value, penalty_value). Exact rational arithmetic."
  },
  {
   "property": "C177",
   "status": "partial",
   "theorems": [
    "Nntl.Text.report_contents",
    "Nntl.Text.simple_report_contents",
    "Nntl.Text.report_printed_partial",
    "Nntl.Text.simple_report_printed_partial",
    "Nntl.Text.set_report_printed",
    "Nntl.Text.set_report_contents",
    "Nntl.Text.divergence_after_report",
    "Nntl.Text.exploding_loss_aborts",
    "Nntl.Text.exploding_loss_aborts_simple",
    "Nntl.Text.diverging_training_aborts",
    "Nntl.Text.ten_to_thirty_aborts"
   ],
   "note": "Contents proved for all numbers. Printing proved for losses below 10^10 (default observer), below 10^39, that is all of type float (simple observer, further data sets). False beyond: with losses from 10^32 on the line of the default observer never fits its 128 characters and sprintf_s ends the program, before the divergence check that is meant for this case; the simple observer does so from 10^46 on (double). The rounding of the shares and seconds to real_t before printing is not modelled."
  },
  {
   "property": "C178",
   "status": "proved",
   "theorems": [
    "Nntl.Text.start_printed",
    "Nntl.Text.time_printed",
    "Nntl.Text.gradcheck_messages_printed",
    "Nntl.Text.set_names"
   ],
   "note": ""
  },
  {
   "property": "C179",
   "status": "proved",
   "theorems": [
    "Nntl.Text.layer_name_printed",
    "Nntl.Text.layer_names_differ",
    "Nntl.Text.type_ids_differ",
    "Nntl.Text.library_type_ids",
    "Nntl.Text.long_layer_name_aborts",
    "Nntl.Text.type_ids_collide"
   ],
   "note": "The limit of 40 characters is an assertion; without assertions a longer name is taken and one of 48 characters ends the program when the name is asked for. Identifiers of names with other characters may collide (type_ids_collide)."
  },
  {
   "property": "C18",
   "status": "proved",
   "theorems": [
    "Nntl.BinFile.train_data_round_trip",
    "Nntl.BinFile.matrix_round_trip",
    "Nntl.BinFile.bias_is_one"
   ],
   "note": "Any sizes up to 2^31-2 (the int32 limit), any field order, float and double files into float and double matrices; environment grants the memory."
  },
  {
   "property": "C180",
   "status": "partial",
   "theorems": [
    "Nntl.Tools.timer_holds",
    "Nntl.Tools.timer_runs",
    "Nntl.Tools.timer_text",
    "Nntl.Tools.demo_timer",
    "Nntl.Tools.first_lost"
   ],
   "note": "False with set_repeats() before the first measurement: the first duration is lost (first_lost). Proved for histories without set_repeats."
  },
  {
   "property": "C181",
   "status": "partial",
   "theorems": [
    "Nntl.Tools.nanoseconds_readable",
    "Nntl.Tools.readable_partial",
    "Nntl.Tools.long_seconds_wrong",
    "Nntl.Tools.hour_shown_wrong"
   ],
   "note": "Proved for nanoseconds, the unit the library uses, and for the other units below 1000 s. False beyond: the unit bigger than seconds is seconds, so an hour in seconds is printed as 3.600 s. Division and rounding are exact in the model."
  },
  {
   "property": "C182",
   "status": "partial",
   "theorems": [
    "Nntl.Tools.sizes_kept",
    "Nntl.Tools.mul_div",
    "Nntl.Tools.div_exact_partial",
    "Nntl.Tools.div_loses_training",
    "Nntl.Tools.sizes_checked"
   ],
   "note": "Division checks only that the biggest size is divisible: sizes (k, 1) divided by k can not be used for training (div_loses_training). The library divides only sizes multiplied before (mul_div)."
  },
  {
   "property": "C183",
   "status": "proved",
   "theorems": [
    "Nntl.Tools.loops",
    "Nntl.Tools.loops_one",
    "Nntl.Tools.loop_with_previous"
   ],
   "note": ""
  },
  {
   "property": "C184",
   "status": "proved",
   "theorems": [
    "Nntl.Tools.denormals_switch",
    "Nntl.Tools.any_thread",
    "Nntl.Tools.flushed_in_training",
    "Nntl.Tools.inference_elsewhere",
    "Nntl.Tools.scoped_rounding",
    "Nntl.Tools.field_reported"
   ],
   "note": "For NNTL_DENORMALS2ZERO on x64. Inference in a thread that neither trains nor constructs the network keeps that thread's mode (inference_elsewhere)."
  },
  {
   "property": "C185",
   "status": "partial",
   "theorems": [
    "Nntl.Eval.labels_judged_by_threshold_of_init",
    "Nntl.Eval.threshold_set_before_init_partial",
    "Nntl.Eval.other_sets_judged_by_present_threshold",
    "Nntl.Eval.threshold_changed_after_init",
    "Nntl.Eval.labels_prepared_iff"
   ],
   "note": "Proved if the threshold is left alone after init, and for sets that are not prepared. False otherwise: labels of the training and test sets are judged by the threshold of init, answers by the present one (labels_judged_by_threshold_of_init, witness threshold_changed_after_init)."
  },
  {
   "property": "C186",
   "status": "proved",
   "theorems": [
    "Nntl.Eval.count_same_counts",
    "Nntl.Eval.count_same_batch_counts"
   ],
   "note": ""
  },
  {
   "property": "C187",
   "status": "proved",
   "theorems": [
    "Nntl.Sgd.answers_are_a_function",
    "Nntl.Sgd.evaluation_keeps_weights"
   ],
   "note": "Exact real arithmetic; layers without dropout and optional packs; optimisers that do not change weights before the forward pass (shown for the ClassicalConstant type without momentum, and for blocked learning: gradWorks_plain, gradWorks_blocked)."
  },
  {
   "property": "C188",
   "status": "proved",
   "theorems": [
    "Nntl.Sgd.training_step_is_descent",
    "Nntl.Sgd.gradWorks_plain",
    "Nntl.Sgd.gradWorks_blocked",
    "Nntl.Sgd.regular_elementwise",
    "Nntl.Sgd.regular_softmax"
   ],
   "note": "Exact real arithmetic; the loss has derivatives at the samples of the batch (regular_elementwise, regular_softmax: always, for activation functions that have derivatives everywhere)."
  },
  {
   "property": "C189",
   "status": "proved",
   "theorems": [
    "Nntl.Sgd.training_is_gradient_descent",
    "Nntl.Sgd.same_training_same_weights"
   ],
   "note": "Exact real arithmetic, constant learning rates, as for C188."
  },
  {
   "property": "C19",
   "status": "proved",
   "theorems": [
    "Nntl.BinFile.truncated_train_data_rejected",
    "Nntl.BinFile.truncated_matrix_rejected",
    "Nntl.BinFile.read_train_data_total"
   ],
   "note": "Every strict prefix, under every allocation behaviour."
  },
  {
   "property": "C190",
   "status": "proved",
   "theorems": [
    "Nntl.Sgd.small_descent_lowers",
    "Nntl.Sgd.small_rates_lower_the_loss",
    "Nntl.Sgd.output_bias_slope"
   ],
   "note": "Exact real arithmetic, as for C188."
  },
  {
   "property": "C191",
   "status": "proved",
   "theorems": [
    "Nntl.Sgd.whole_training_is_gradient_descent",
    "Nntl.Sgd.successful_training_is_gradient_descent",
    "Nntl.Sgd.whole_training_exists"
   ],
   "note": "Exact real arithmetic, constant learning rates, as for C188; samples in rows, with the bias column in place; callbacks do not change the network or its settings; derivatives exist at the weights that are passed (GoesWell; always so for the example)."
  },
  {
   "property": "C192",
   "status": "proved",
   "theorems": [
    "Nntl.Sgd.cells_weights",
    "Nntl.Sgd.evaluation_keeps_cells",
    "Nntl.Sgd.answers_with_any_optimisers",
    "Nntl.Sgd.every_optimiser_gets_the_derivatives",
    "Nntl.Sgd.training_follows_the_optimisers"
   ],
   "note": "Exact real arithmetic; derivatives exist at the weights that are passed (Regular; always so for differentiable activations with the losses of C188)."
  },
  {
   "property": "C193",
   "status": "proved",
   "theorems": [
    "Nntl.Sgd.training_follows_the_rules",
    "Nntl.Sgd.gradWorks_momentum",
    "Nntl.Sgd.gradWorks_nesterov",
    "Nntl.Sgd.gradWorks_adam",
    "Nntl.Sgd.gradWorks_rmsprop"
   ],
   "note": "Exact real arithmetic; all layers are trained; the decays of Adam stay the same; Adam and RMSProp without additional momentum."
  },
  {
   "property": "C194",
   "status": "proved",
   "theorems": [
    "Nntl.Sgd.whole_training_follows_the_optimisers",
    "Nntl.Sgd.whole_training_follows_the_rules"
   ],
   "note": "Exact real arithmetic; samples in rows, with the bias column in place; callbacks do not change the network or its settings (settings of optimisers may follow any schedule over their calls); derivatives exist at the weights that are passed."
  },
  {
   "property": "C195",
   "status": "proved",
   "theorems": [
    "Nntl.Sgd.gradWorks_methods",
    "Nntl.Sgd.new_works_remember",
    "Nntl.Sgd.training_follows_the_methods",
    "Nntl.Sgd.whole_training_follows_the_methods"
   ],
   "note": "Exact real arithmetic; calls that are not blocked, without norm limits and dropout of learning rates; all layers are trained; derivatives exist at the weights that are passed."
  },
  {
   "property": "C196",
   "status": "proved",
   "theorems": [
    "Nntl.Sgd.training_with_every_setting",
    "Nntl.Sgd.whole_training_with_every_setting",
    "Nntl.Sgd.new_works_stand",
    "Nntl.Sgd.training_follows_the_mat_rules",
    "Nntl.Sgd.whole_training_follows_the_mat_rules"
   ],
   "note": "Exact real arithmetic; type and decays of each layer stay; derivatives exist at the weights where they are taken."
  },
  {
   "property": "C197",
   "status": "partial",
   "theorems": [
    "Nntl.Sgd.lengths_stay_within_limits",
    "Nntl.Sgd.limits_hold_after_paths",
    "Nntl.Sgd.blocked_learning_keeps_weights",
    "Nntl.Sgd.frozen_layers_keep_their_weights_partial",
    "Nntl.Sgd.frozen_layers_may_shrink"
   ],
   "note": "Limits and blocked learning are proved in full. That untrained layers keep their weights is false of the code with Nesterov momentum and a limit (frozen_layers_may_shrink); it is proved without this combination."
  },
  {
   "property": "C198",
   "status": "proved",
   "theorems": [
    "Nntl.Sgd.evaluation_draws_nothing",
    "Nntl.Sgd.one_draw_per_training_step",
    "Nntl.Sgd.evaluation_uses_the_whole_network",
    "Nntl.Sgd.training_shows_the_thinned_network",
    "Nntl.Sgd.optimisers_get_derivatives_of_the_thinned_loss",
    "Nntl.Sgd.training_descends_on_thinned_losses",
    "Nntl.Sgd.regularOn_elementwise"
   ],
   "note": "Exact real arithmetic; settings of dropout and penalties stay during the history; derivatives exist at the weights where they are taken (regularOn_elementwise: always, for smooth activations)."
  },
  {
   "property": "C199",
   "status": "proved",
   "theorems": [
    "Nntl.Sgd.dropout_training_with_every_setting",
    "Nntl.Sgd.lengths_stay_within_limits_with_dropout",
    "Nntl.Sgd.blocked_learning_keeps_weights_with_dropout",
    "Nntl.Sgd.training_on_thinned_losses_follows_the_mat_rules"
   ],
   "note": "As C196 and C198."
  },
  {
   "property": "C20",
   "status": "proved",
   "theorems": [
    "Nntl.BinFile.short_header_rejected",
    "Nntl.BinFile.wrong_signature_rejected",
    "Nntl.BinFile.wrong_version_rejected",
    "Nntl.BinFile.wrong_field_count_rejected",
    "Nntl.BinFile.wrong_field_count_rejected_matrix",
    "Nntl.BinFile.seq_classes_rejected",
    "Nntl.BinFile.zero_dimension_rejected",
    "Nntl.BinFile.unknown_name_rejected",
    "Nntl.BinFile.unknown_type_rejected",
    "Nntl.BinFile.duplicate_field_rejected",
    "Nntl.BinFile.zero_dimension_rejected_matrix",
    "Nntl.BinFile.unknown_type_rejected_matrix"
   ],
   "note": "Field errors are proved after any valid prefix of fields and with arbitrary bytes following."
  },
  {
   "property": "C200",
   "status": "proved",
   "theorems": [
    "Nntl.Sgd.Thin.whole_training_on_thinned_losses",
    "Nntl.Sgd.Thin.whole_training_on_thinned_losses_follows_the_mat_rules",
    "Nntl.Sgd.Thin.whole_dropout_training_with_every_setting",
    "Nntl.Sgd.Thin.whole_training_exists"
   ],
   "note": "As C194 and C198: exact real arithmetic; derivatives exist at the weights where they are taken; callbacks evaluate but do not change the network."
  },
  {
   "property": "C201",
   "status": "partial",
   "theorems": [
    "Nntl.Sgd.lengths_stay_within_limits_always",
    "Nntl.Sgd.frozen_layers_keep_their_weights_always_partial",
    "Nntl.Sgd.blocked_learning_keeps_weights_always",
    "Nntl.Sgd.Thin.whole_training_ends_within_limits",
    "Nntl.Sgd.Thin.whole_training_keeps_frozen_layers_partial",
    "Nntl.Sgd.Thin.whole_training_with_blocked_learning_keeps_weights",
    "Nntl.Sgd.frozen_layers_may_shrink"
   ],
   "note": "Extends the corollaries of C197, C199 and C200 to gradients that are no derivatives. Partial as C197: a frozen layer with Nesterov momentum and a limit of lengths may shrink (frozen_layers_may_shrink)."
  },
  {
   "property": "C202",
   "status": "proved",
   "theorems": [
    "Nntl.Grad.optimiser_writes_only_its_matrices",
    "Nntl.Grad.neurons_do_not_influence_each_other",
    "Nntl.Grad.weights_do_not_influence_each_other",
    "Nntl.Grad.limit_couples_the_weights_of_a_neuron"
   ],
   "note": "On the model of C48-C52."
  },
  {
   "property": "C203",
   "status": "proved",
   "theorems": [
    "Nntl.Sgd.reordered_same_loss",
    "Nntl.Sgd.order_in_batches_is_irrelevant",
    "Nntl.Sgd.full_batch_training_ignores_the_order"
   ],
   "note": "On the model of C187, C191 and C196; over the reals, derivatives must exist as in C196. Without dropout."
  },
  {
   "property": "C204",
   "status": "proved",
   "theorems": [
    "Nntl.Sgd.batch_step_is_mean_of_single_steps"
   ],
   "note": "On the model of C187; over the reals."
  },
  {
   "property": "C205",
   "status": "partial",
   "theorems": [
    "Nntl.Sgd.gradWorks_decaying",
    "Nntl.Sgd.penalised_step_is_descent",
    "Nntl.Sgd.penalised_training_is_gradient_descent",
    "Nntl.Sgd.same_penalised_training_same_weights",
    "Nntl.Sgd.whole_penalised_training",
    "Nntl.Sgd.small_penalised_step_lowers",
    "Nntl.Sgd.small_rates_lower_the_penalised_loss",
    "Nntl.Sgd.penalised_is_reported",
    "Nntl.Sgd.tiled_layers_decay_more",
    "Nntl.Sgd.tiled_penalty_is_not_the_reported_one"
   ],
   "note": "On the model of C187. Proved in full for networks without tile packs (penalised_is_reported). With tile packs the property is false: penalties of the layers inside act once for each tile but are reported once (tiled_layers_decay_more, witness tiled_penalty_is_not_the_reported_one); there the step descends on the loss with penalties counted for each tile. Weights with an L1 penalty must not be 0."
  },
  {
   "property": "C206",
   "status": "proved",
   "theorems": [
    "Nntl.Sgd.penalised_step_is_subgradient_descent",
    "Nntl.Sgd.penalised_training_is_subgradient_descent",
    "Nntl.Sgd.whole_penalised_training_is_subgradient_descent",
    "Nntl.Sgd.Shape.Ok.subPath_unique",
    "Nntl.Sgd.Penalty.Least.unique"
   ],
   "note": "On the model of C187 and C191; over the reals; the loss must have derivatives (C187)."
  },
  {
   "property": "C207",
   "status": "proved",
   "theorems": [
    "Nntl.Sgd.shares_same_loss",
    "Nntl.Sgd.repeated_shares",
    "Nntl.Sgd.Reordered.shares",
    "Nntl.Sgd.only_shares_in_batches_matter",
    "Nntl.Sgd.full_batch_training_sees_shares_only"
   ],
   "note": "On the models of C196 and C203; over the reals; the loss must have derivatives (C187)."
  },
  {
   "property": "C208",
   "status": "proved",
   "theorems": [
    "Nntl.Sgd.relabelled_networks_train_alike",
    "Nntl.Sgd.symmetry_stays",
    "Nntl.Sgd.whole_training_keeps_symmetry",
    "Nntl.Sgd.inner_neurons_can_change_places",
    "Nntl.Sgd.top_neurons_can_change_places",
    "Nntl.Sgd.twins_stay_twins",
    "Nntl.Sgd.twins_stay_twins_in_whole_training",
    "Nntl.Sgd.top_twins_stay_twins",
    "Nntl.Sgd.top_twins_stay_twins_in_whole_training",
    "Nntl.Sgd.dropping_separates_twins"
   ],
   "note": "On the model of C196; over the reals; the loss must have derivatives (C187)."
  },
  {
   "property": "C209",
   "status": "proved",
   "theorems": [
    "Nntl.Sgd.carried_training",
    "Nntl.Sgd.order_of_features_is_irrelevant",
    "Nntl.Sgd.order_of_outputs_is_irrelevant",
    "Nntl.Sgd.carried_full_training",
    "Nntl.Sgd.order_of_features_in_whole_training",
    "Nntl.Sgd.order_of_outputs_in_whole_training",
    "Nntl.Sgd.fair_elementwise",
    "Nntl.Sgd.fair_softmax"
   ],
   "note": "On the model of C196; over the reals; the loss must have derivatives (C187)."
  },
  {
   "property": "C21",
   "status": "proved",
   "theorems": [
    "Nntl.BinFile.failed_read_leaves_data"
   ],
   "note": "All byte strings, all error codes, all prior states."
  },
  {
   "property": "C210",
   "status": "proved",
   "theorems": [
    "Nntl.Sgd.weights_without_derivatives_stay",
    "Nntl.Sgd.unseen_features_keep_their_weights",
    "Nntl.Sgd.unseen_features_in_whole_training",
    "Nntl.Sgd.unseen_features_have_no_influence",
    "Nntl.Sgd.penalties_move_unseen_weights"
   ],
   "note": "On the model of C196; over the reals; the loss must have derivatives (C187). The optimiser must have no velocity and no running mean of derivatives for the weights at the beginning, as a new one."
  },
  {
   "property": "C211",
   "status": "proved",
   "theorems": [
    "Nntl.Sgd.scale_of_the_loss",
    "Nntl.Sgd.scale_of_the_loss_in_whole_training",
    "Nntl.Sgd.penalties_see_the_scale",
    "Nntl.Sgd.slow_same"
   ],
   "note": "On the model of C196; over the reals; the loss must have derivatives (C187). Both networks begin with the same weights and the same memories of the optimisers. The theorem about train() compares with the rules of the second optimiser on the same shuffled batches. penalties_see_the_scale shows that the condition on penalties is needed."
  },
  {
   "property": "C212",
   "status": "proved",
   "theorems": [
    "Nntl.Sgd.scale_of_the_loss_for_adam",
    "Nntl.Sgd.scale_of_the_loss_for_adam_in_whole_training",
    "Nntl.Sgd.first_step_of_rms_grows",
    "Nntl.Sgd.even_same",
    "Nntl.Sgd.even_same_in_training"
   ],
   "note": "On the model of C196; over the reals; the loss must have derivatives (C187). The second network begins with the same weights; its optimisers remember multiplied derivatives, which for new optimisers is the same memory. The theorem about train() compares with the rules of the second optimiser on the same shuffled batches."
  },
  {
   "property": "C22",
   "status": "proved",
   "theorems": [
    "Nntl.DataBuf.buffer_is_fifo",
    "Nntl.DataBuf.buffer_is_fifo_several",
    "Nntl.DataBuf.feed_eq"
   ],
   "note": "Every capacity, every history; also for several outstanding claims while the buffer is not entirely claimed with nothing unread."
  },
  {
   "property": "C23",
   "status": "partial",
   "theorems": [
    "Nntl.DataBuf.never_overclaims_partial",
    "Nntl.DataBuf.bounded_producers_never_overclaim_partial",
    "Nntl.DataBuf.claim_amount",
    "Nntl.DataBuf.overclaim",
    "Nntl.DataBuf.overclaim_loses_data"
   ],
   "note": "False in general: overclaim is a reachable state with 20 claimed elements in a buffer of 10, overclaim_loses_data shows the lost data. Proved if no request is made while everything is claimed and nothing is unread, in particular if the requests of all producers but one cannot fill the buffer."
  },
  {
   "property": "C24",
   "status": "partial",
   "theorems": [
    "Nntl.DataBuf.release_removes_acquired_partial",
    "Nntl.DataBuf.move_data_partial",
    "Nntl.DataBuf.zero_release_loses_data"
   ],
   "note": "Proved for positive numbers of elements. False for zero elements on a full buffer (zero_release_loses_data)."
  },
  {
   "property": "C25",
   "status": "partial",
   "theorems": [
    "Nntl.Train.train_shape",
    "Nntl.Train.train_runs_epochs_partial",
    "Nntl.Train.train_outcomes",
    "Nntl.Train.diverged_epoch_never_ends"
   ],
   "note": "Proved except for the matching of begin/end events in an epoch stopped by the divergence check: such an epoch has no end event (diverged_epoch_never_ends)."
  },
  {
   "property": "C26",
   "status": "proved",
   "theorems": [
    "Nntl.Train.diverged_iff",
    "Nntl.Train.diverged_stops",
    "Nntl.Train.nan_loss_goes_unnoticed"
   ],
   "note": "Exact characterisation. A loss that is not a number is below no threshold and not noticed."
  },
  {
   "property": "C27",
   "status": "partial",
   "theorems": [
    "Nntl.Train.reports_exact",
    "Nntl.Train.reports_follow_flags_partial",
    "Nntl.Train.unflagged_epoch_is_reported",
    "Nntl.Train.setLoop_spec",
    "Nntl.Train.flagsFrom_spec",
    "Nntl.Train.flagsStride_spec",
    "Nntl.Train.flagsDefault_spec",
    "Nntl.Train.flagsFrom_zero_start"
   ],
   "note": "Exact reporting condition proved; false as stated because an unflagged epoch is reported while the divergence check is on. Constructors of the condition vector proved exactly; a start epoch of zero writes before the vector."
  },
  {
   "property": "C28",
   "status": "proved",
   "theorems": [
    "Nntl.Train.sizes_consistent",
    "Nntl.Train.size_setters",
    "Nntl.Train.accepted_sizes_may_not_initialise"
   ],
   "note": "all call sequences"
  },
  {
   "property": "C29",
   "status": "partial",
   "theorems": [
    "Nntl.Eval.loss_one_batch_partial",
    "Nntl.Eval.loss_equal_batches_partial",
    "Nntl.Eval.loss_depends_on_batching"
   ],
   "note": "Property false of the code: the reported loss is the sum, not the mean, of the means of the batches (loss_depends_on_batching). Proved: exact value for one batch and for equal batches; exact arithmetic (rationals)."
  },
  {
   "property": "C30",
   "status": "partial",
   "theorems": [
    "Nntl.Eval.accuracy_binary",
    "Nntl.Eval.accuracy_binary_other",
    "Nntl.Eval.accuracy_one_hot_partial",
    "Nntl.Eval.accuracy_one_hot_other_partial",
    "Nntl.Eval.accuracy_depends_on_batching",
    "Nntl.Eval.walk_label_batches"
   ],
   "note": "Binary evaluator: proved in full. One-hot evaluator: proved for rows with a unique maximum; false with ties (accuracy_depends_on_batching)."
  },
  {
   "property": "C31",
   "status": "proved",
   "theorems": [
    "Nntl.Layers.construct_succeeds_iff",
    "Nntl.Layers.layer_indices",
    "Nntl.Layers.layer_indices_distinct",
    "Nntl.Layers.layer_used_twice_refused",
    "Nntl.Layers.too_many_layers_share_indices"
   ],
   "note": "Observation: a stack of more than 65536 layers is accepted (the counter wraps) and indices are shared."
  },
  {
   "property": "C32",
   "status": "partial",
   "theorems": [
    "Nntl.Layers.horizontal_pack_refused_iff",
    "Nntl.Layers.horizontal_pack_refused_iff_release_partial",
    "Nntl.Layers.accepted_packs_cover",
    "Nntl.Layers.optional_pack_fields_separate",
    "Nntl.Layers.optional_pack_accepts",
    "Nntl.Layers.field_outside_is_undefined"
   ],
   "note": "Complete with assertions compiled in; in release builds a field reaching outside the incoming neurons is undefined behaviour instead of a refusal (field_outside_is_undefined). Optional pack: acceptance implies disjoint fields."
  },
  {
   "property": "C33",
   "status": "partial",
   "theorems": [
    "Nntl.Layers.memory_sufficient_partial",
    "Nntl.Layers.no_memory_needed",
    "Nntl.Layers.pack_slices_apart_from_inner",
    "Nntl.Layers.fprop_memory_may_be_short",
    "Nntl.Layers.layers_initialised_for_their_rows"
   ],
   "note": "Every layer receives what it announced for the mode of the session; the forward requirement of a layer inside a horizontal pack is not guaranteed while training is possible (fprop_memory_may_be_short). Every layer is initialised for the batch sizes of the network times the tile factors above it."
  },
  {
   "property": "C34",
   "status": "proved",
   "theorems": [
    "Nntl.Pass.wrapper_shows_field_with_ones_and_restores",
    "Nntl.Pass.tree_leaves_lower_activations"
   ],
   "note": "The wrapper itself for all positions and sizes, and whole accepted trees of packs at any depth with any lawful elementary layers."
  },
  {
   "property": "C35",
   "status": "proved",
   "theorems": [
    "Nntl.Pass.horizontal_output_layout",
    "Nntl.Pass.horizontal_gradient_is_sum"
   ],
   "note": "Layout for any element type; the gradient as a sum for any commutative addition."
  },
  {
   "property": "C36",
   "status": "partial",
   "theorems": [
    "Nntl.Pass.every_layer_gets_its_gradient",
    "Nntl.Pass.tree_passes_partial",
    "Nntl.Pass.training_step_spec",
    "Nntl.Pass.vertical_pack_calls_partial",
    "Nntl.Pass.vertical_pack_with_stopping_layer_wrong"
   ],
   "note": "Holds for every loop over the layers, every accepted tree of trained layers, and networks with untrained layers at the bottom. False for a vertical pack with an untrained layer between trained ones: vertical_pack_with_stopping_layer_wrong."
  },
  {
   "property": "C37",
   "status": "proved",
   "theorems": [
    "Nntl.Pass.gated_rows",
    "Nntl.Pass.gated_rows_rowwise"
   ],
   "note": "Forward pass for all gates, masks, sizes. Nearby finding gate_gradient_is_ignored: a trainable gate never gets its gradient."
  },
  {
   "property": "C38",
   "status": "proved",
   "theorems": [
    "Nntl.Istor.live_blocks_disjoint_inside",
    "Nntl.Istor.full_capacity_after_release",
    "Nntl.Istor.overflow_detected",
    "Nntl.Istor.out_of_order_release_detected",
    "Nntl.Istor.preinit_without_init_gives_block_outside",
    "Nntl.Istor.rounded_arrays_do_not_share_lines"
   ],
   "note": "Histories with blocks of positive size between init and deinit. Observations: empty blocks escape the order check; preinit without init gives a block outside the storage (debug assertion only)."
  },
  {
   "property": "C39",
   "status": "partial",
   "theorems": [
    "Nntl.Kernel.argmax_is_max_partial",
    "Nntl.Kernel.argmax_first_partial",
    "Nntl.Kernel.argmax_by_rows_first",
    "Nntl.Kernel.argmax_cw_first",
    "Nntl.Kernel.argmax_rw_small_first",
    "Nntl.Kernel.argmax_depends_on_threading",
    "Nntl.Kernel.cw_threads_used"
   ],
   "note": "False as stated: the column-threaded variant may return a later one of several equal maxima (argmax_depends_on_threading). Proved for all pools and interleavings: always an index of a maximum, the first one if the maximum is unique or the column-threaded variant is not selected."
  },
  {
   "property": "C40",
   "status": "proved",
   "theorems": [
    "Nntl.Kernel.row_max",
    "Nntl.Kernel.row_max_rw",
    "Nntl.Kernel.row_max_rw_small",
    "Nntl.Kernel.row_sum",
    "Nntl.Kernel.row_sum_by_rows",
    "Nntl.Kernel.row_sum_mt_cw",
    "Nntl.Kernel.row_sum_ip"
   ],
   "note": "All variants, all pools, all interleavings; exact arithmetic (linear order / commutative monoid)."
  },
  {
   "property": "C41",
   "status": "proved",
   "theorems": [
    "Nntl.Kernel.tiling_roll_read",
    "Nntl.Kernel.tiling_roll_write",
    "Nntl.Kernel.tiling_unroll_read",
    "Nntl.Kernel.tiling_unroll_write",
    "Nntl.Kernel.unroll_after_roll",
    "Nntl.Kernel.roll_after_unroll"
   ],
   "note": "all sizes, single thread and every pool state, any order of the writes"
  },
  {
   "property": "C42",
   "status": "partial",
   "theorems": [
    "Nntl.Kernel.clone_cols_zero_count_wrong",
    "Nntl.Kernel.clone_cols_partial",
    "Nntl.Kernel.clone_col"
   ],
   "note": "false of the code for a zero count behind the first entry (clone_cols_zero_count_wrong); proved for all other specifications"
  },
  {
   "property": "C43",
   "status": "proved",
   "theorems": [
    "Nntl.Kernel.extract_rows",
    "Nntl.Kernel.extract_cols",
    "Nntl.Kernel.extract_rows_seq",
    "Nntl.Kernel.extract_batches"
   ],
   "note": "all sizes, index lists, splits and write orders"
  },
  {
   "property": "C44",
   "status": "proved",
   "theorems": [
    "Nntl.Kernel.transpose_seq_read",
    "Nntl.Kernel.transpose_seq_write",
    "Nntl.Kernel.transpose_spec",
    "Nntl.Kernel.transpose_ignore_bias_spec",
    "Nntl.Kernel.transpose_twice"
   ],
   "note": "out-of-place variants; the in-place one is a BLAS call and not modelled"
  },
  {
   "property": "C45",
   "status": "proved",
   "theorems": [
    "Nntl.KOrd.k_best_distinct_in_every_column",
    "Nntl.KOrd.k_biggest_distinct",
    "Nntl.KOrd.k_smallest_distinct",
    "Nntl.KOrd.k_best_in_every_column",
    "Nntl.KOrd.search_leaves_the_rest"
   ],
   "note": "All linear orders with a worst element (no NaN), all k, batch sequences, threadings; both the distinct orders and the orders with equal values."
  },
  {
   "property": "C46",
   "status": "partial",
   "theorems": [
    "Nntl.KOrd.aggregation_locates_the_best_partial",
    "Nntl.KOrd.aggregation_loses_values_with_ties",
    "Nntl.KOrd.aggregation_loses_values_with_free_places"
   ],
   "note": "Holds for distinct orders when the first batch has at least k-1 distinct values; false for orders with equal values and for a first batch with fewer distinct values (witnesses proved)."
  },
  {
   "property": "C47",
   "status": "proved",
   "theorems": [
    "Nntl.Num.softmax_result",
    "Nntl.Num.softmax_is_distribution",
    "Nntl.Num.softmax_shift_invariant",
    "Nntl.Num.softmax_no_overflow",
    "Nntl.Num.softmax_temp_layout",
    "Nntl.Num.softmax_runs"
   ],
   "note": "Exact real numbers, default layout (samples in rows); every threshold, number of threads and interleaving."
  },
  {
   "property": "C48",
   "status": "proved",
   "theorems": [
    "Nntl.Grad.velocity_is_weighted_sum",
    "Nntl.Grad.velocity_constant_settings",
    "Nntl.Grad.momentum_step",
    "Nntl.Grad.nesterov_lookahead",
    "Nntl.Grad.nesterov_total",
    "Nntl.Grad.momentum_accumulates_plain_step"
   ],
   "note": "Exact real numbers; whole training sessions of any length, every threshold, thread count and interleaving."
  },
  {
   "property": "C49",
   "status": "partial",
   "theorems": [
    "Nntl.Grad.blocked_apply_changes_nothing",
    "Nntl.Grad.blocked_pre_changes_nothing",
    "Nntl.Grad.blocked_calls_are_invisible",
    "Nntl.Grad.zero_rate_keeps_weights_partial",
    "Nntl.Grad.zero_rate_moves_weights",
    "Nntl.Grad.zero_rate_changes_optimiser"
   ],
   "note": "Blocked calls are proved invisible. The zero-learning-rate half is false of the code: with momentum a zero rate still moves the weights and it always updates the optimiser state (both counterexamples proved); without momentum and with max-norm off the weights are kept."
  },
  {
   "property": "C50",
   "status": "proved",
   "theorems": [
    "Nntl.Grad.session_machine_independent",
    "Nntl.Grad.adam_bookkeeping",
    "Nntl.Grad.adam_constant_betas",
    "Nntl.Grad.adam_update",
    "Nntl.Grad.adam_bias_correction"
   ],
   "note": "Exact real numbers."
  },
  {
   "property": "C51",
   "status": "proved",
   "theorems": [
    "Nntl.Grad.gains_positive",
    "Nntl.Grad.gains_follow_gradient_signs",
    "Nntl.Grad.gains_follow_steps",
    "Nntl.Grad.gains_follow_velocity",
    "Nntl.Grad.gainRule_direction",
    "Nntl.Grad.gains_stay_inside"
   ],
   "note": "Exact real numbers. About the functions of the math interface and the sequence of calls of ILR_apply; in the code as it is, an object with individual learning rates on cannot be initialised, see C144."
  },
  {
   "property": "C52",
   "status": "proved",
   "theorems": [
    "Nntl.Grad.check_normalize_rows",
    "Nntl.Grad.apply_grad_bounds_rows",
    "Nntl.Grad.session_rows_bounded"
   ],
   "note": "Exact real numbers; bias column excluded exactly as configured."
  },
  {
   "property": "C53",
   "status": "proved",
   "theorems": [
    "Nntl.Dropout.dropout_history",
    "Nntl.Dropout.history_exists",
    "Nntl.Dropout.late_switch_fails"
   ],
   "note": "Classical and alpha dropout, exact reals, whole histories. Hypothesis: if dropout is on, the size of a training batch was announced while it was on (late_switch_fails shows the hypothesis is needed)."
  },
  {
   "property": "C54",
   "status": "proved",
   "theorems": [
    "Nntl.Norm.statistics_compose",
    "Nntl.Norm.whole_replay",
    "Nntl.Norm.columns_replay",
    "Nntl.Norm.whole_run_exists",
    "Nntl.Norm.demo_success",
    "Nntl.Norm.columns_reported",
    "Nntl.Norm.whole_reported"
   ],
   "note": "Exact field arithmetic. whole_replay / columns_replay: after a successful run the other sets got by the accumulated statistics exactly what replaying the individual steps of the training set gives."
  },
  {
   "property": "C55",
   "status": "proved",
   "theorems": [
    "Nntl.Utils.Bw.listed_iff",
    "Nntl.Utils.Bw.unvisited_default",
    "Nntl.Utils.Bw.switch_empties",
    "Nntl.Utils.Bw.release_same",
    "Nntl.Utils.Bw.release_drops_names",
    "Nntl.Utils.Bw.question_after_reset"
   ],
   "note": "All histories that violate no assertion (listed_iff), in builds with and without assertions (release_same). Histories that do violate one can lose names silently in builds without assertions (release_drops_names)."
  },
  {
   "property": "C56",
   "status": "proved",
   "theorems": [
    "Nntl.Utils.Cm.counters_exact",
    "Nntl.Utils.Cm.totals",
    "Nntl.Utils.Cm.means_demo",
    "Nntl.Utils.Cm.fresh_update_undefined",
    "Nntl.Utils.Cm.reduce_into_summand"
   ],
   "note": "Hypotheses: every object is cleared before its first use (the constructor initialises nothing), fewer than 2^31 samples per object, no reduction into one of the later summands; the last two theorems show what happens otherwise."
  },
  {
   "property": "C57",
   "status": "partial",
   "theorems": [
    "Nntl.Utils.Ls.settings_map_partial",
    "Nntl.Utils.Ls.settings_map_default_partial",
    "Nntl.Utils.Ls.for_each_visits",
    "Nntl.Utils.Ls.set_default_undefined"
   ],
   "note": "Proved for all histories of add; set_default has no return statement, so by the language rules its use is undefined behaviour. settings_map_default_partial covers all histories under the assumption that the compiled body returns."
  },
  {
   "property": "C58",
   "status": "proved",
   "theorems": [
    "Nntl.Utils.Mx.options_independent",
    "Nntl.Utils.Mx.duplicate_index"
   ],
   "note": "Any root, any list of distinct mixins, any option counts, all histories of writes."
  },
  {
   "property": "C59",
   "status": "partial",
   "theorems": [
    "Nntl.Utils.Dh.all_full_batches_partial",
    "Nntl.Utils.Dh.last_full_batch_skipped",
    "Nntl.Utils.Dh.announced_count_overstates",
    "Nntl.Utils.Dh.init_at_reshuffle"
   ],
   "note": "True when the batch size does not divide the number of rows; false when it does (the last full mini-batch is skipped in every period)."
  },
  {
   "property": "C60",
   "status": "proved",
   "theorems": [
    "Nntl.Grad.addendum_value",
    "Nntl.Grad.addendum_gradient",
    "Nntl.Grad.addendum_gradient_is_derivative"
   ],
   "note": "Exact real numbers; L1 derivative at zero weights excluded (not differentiable there)."
  },
  {
   "property": "C61",
   "status": "partial",
   "theorems": [
    "Nntl.TrainData.init4inference_failure_reports_initialised",
    "Nntl.TrainData.init4inference_failure_partial"
   ],
   "note": "false of the code for the requested size; true for smaller sizes"
  },
  {
   "property": "C62",
   "status": "proved",
   "theorems": [
    "Nntl.TrainData.batch_biases_ones"
   ],
   "note": "all reachable states"
  },
  {
   "property": "C63",
   "status": "proved",
   "theorems": [
    "Nntl.TrainData.epoch_batch_possible",
    "Nntl.TrainData.walk_subset_possible",
    "Nntl.TrainData.epoch_run_exists",
    "Nntl.TrainData.walk_run_exists"
   ],
   "note": "all reachable states"
  },
  {
   "property": "C64",
   "status": "proved",
   "theorems": [
    "Nntl.Train.learns_in_training_mode"
   ],
   "note": "all options and environments"
  },
  {
   "property": "C65",
   "status": "proved",
   "theorems": [
    "Nntl.Train.train_cleans_up"
   ],
   "note": "all options and environments"
  },
  {
   "property": "C66",
   "status": "partial",
   "theorems": [
    "Nntl.Train.negative_answer_keeps_arguments_partial",
    "Nntl.Train.positive_answer_arguments",
    "Nntl.Train.negative_answer_changes_argument"
   ],
   "note": "False of the code: a zero argument may be replaced although the answer is no. Proved otherwise."
  },
  {
   "property": "C67",
   "status": "partial",
   "theorems": [
    "Nntl.Train.session_sizes_partial",
    "Nntl.Train.second_session_uses_old_batch_size",
    "Nntl.Train.failed_session_init"
   ],
   "note": "False of the code for a second session with a smaller batch size; proved when the network is reinitialised."
  },
  {
   "property": "C68",
   "status": "partial",
   "theorems": [
    "Nntl.Istor.use_runs_iff",
    "Nntl.Istor.announce_reserves_peak",
    "Nntl.Istor.idxsOfMax_memory",
    "Nntl.Istor.mrwSum_memory",
    "Nntl.Istor.softmax_memory",
    "Nntl.Istor.checkNormalize_memory",
    "Nntl.Istor.applyIlr_memory",
    "Nntl.Istor.deCov_memory",
    "Nntl.Istor.gw_memory_partial",
    "Nntl.Istor.gw_option_switch_aborts"
   ],
   "note": "Proved for every routine with the options of initialisation; false when dropout of learning rates is switched on after initialisation with Nesterov momentum (gw_option_switch_aborts)."
  },
  {
   "property": "C69",
   "status": "proved",
   "theorems": [
    "Nntl.Layers.gradient_matrices_big_enough"
   ],
   "note": "For elementary layers that announce at least the size of their own gradient (all shipped ones except the output layer, which is on top)."
  },
  {
   "property": "C70",
   "status": "proved",
   "theorems": [
    "Nntl.Grad.rmsprop_average",
    "Nntl.Grad.rmsprop_step_bounded",
    "Nntl.Grad.modprop_average",
    "Nntl.Grad.graves_radicand_nonneg",
    "Nntl.Grad.rprop_step"
   ],
   "note": "Exact real numbers."
  },
  {
   "property": "C71",
   "status": "proved",
   "theorems": [
    "Nntl.Grad.adamax_infinity_norm",
    "Nntl.Grad.adamax_bookkeeping"
   ],
   "note": "Exact real numbers; betas of the second accumulator non-negative."
  },
  {
   "property": "C72",
   "status": "proved",
   "theorems": [
    "Nntl.Grad.rnadam_averages"
   ],
   "note": "Exact real numbers; |beta| < 1."
  },
  {
   "property": "C73",
   "status": "proved",
   "theorems": [
    "Nntl.Dropout.dropout_keeps_expectation",
    "Nntl.Dropout.alpha_dropout_keeps_moments"
   ],
   "note": "Exact real numbers."
  },
  {
   "property": "C74",
   "status": "partial",
   "theorems": [
    "Nntl.Norm.whole_within_tolerance",
    "Nntl.Norm.columns_within_tolerance",
    "Nntl.Norm.transf_within_tolerance_partial",
    "Nntl.Norm.transf_misses_target"
   ],
   "note": "Proved for in-memory data, whole and column-wise. For the transforming data source the claim is false (transf_misses_target): the first step stores the measured central value as an offset although no offset was asked for; the partial theorem excludes that case."
  },
  {
   "property": "C75",
   "status": "partial",
   "theorems": [
    "Nntl.Norm.already_normalised_untouched_partial",
    "Nntl.Norm.already_normalised_fails"
   ],
   "note": "Data stays untouched, but the code reports failure (already_normalised_fails), so the success half is false of the code."
  },
  {
   "property": "C76",
   "status": "partial",
   "theorems": [
    "Nntl.Utils.Cm.shares_in_range",
    "Nntl.Utils.Cm.f1_harmonic",
    "Nntl.Utils.Cm.mcc_in_range_partial",
    "Nntl.Utils.Cm.mcc_overflows",
    "Nntl.Utils.Cm.scores_of_samples",
    "Nntl.Utils.Cm.fBeta_weighted_mean",
    "Nntl.Utils.Cm.mcc_extreme",
    "Nntl.Utils.Cm.mcc_overflows_many",
    "Nntl.Utils.Cm.differences_in_range",
    "Nntl.Utils.Cm.differences_of_samples",
    "Nntl.Utils.Cm.scores_computed"
   ],
   "note": "Exact reals after the integer part. The correlation coefficient overflows 32 bits already for 800 samples (mcc_overflows), and whenever there are at least 128 samples of each kind (mcc_overflows_many), so its range is proved only where it does not overflow. F1 overflows from 2^30 found positives on (scores_computed)."
  },
  {
   "property": "C77",
   "status": "partial",
   "theorems": [
    "Nntl.Utils.Dh.holder_batches",
    "Nntl.Utils.Dh.reported_indices_full_batch"
   ],
   "note": "Everything but the reported indices in full batch mode after mini-batches, where the code points before the vector (reported_indices_full_batch)."
  },
  {
   "property": "C78",
   "status": "proved",
   "theorems": [
    "Nntl.Act.activation_derivative",
    "Nntl.Act.activation_smooth",
    "Nntl.Act.activation_smooth_zero",
    "Nntl.Act.relu_kink",
    "Nntl.Act.activation_runs"
   ],
   "note": "Exact reals. Every class of nntl/activations. At zero some functions have no derivative; there the kernels take a one-sided one (relu_kink)."
  },
  {
   "property": "C79",
   "status": "proved",
   "theorems": [
    "Nntl.Act.f_eq",
    "Nntl.Act.zero_stable",
    "Nntl.Act.activation_strictMono",
    "Nntl.Act.activation_mono",
    "Nntl.Act.activation_range",
    "Nntl.Act.df_assertions"
   ],
   "note": "Exact reals."
  },
  {
   "property": "C80",
   "status": "partial",
   "theorems": [
    "Nntl.Act.loss_value",
    "Nntl.Act.loss_xentropy_value",
    "Nntl.Act.loss_xentropy_bounded",
    "Nntl.Act.loss_xentropy_soft_answers",
    "Nntl.Act.loss_softmax_value",
    "Nntl.Act.loss_nonneg",
    "Nntl.Act.custom_not_as_described"
   ],
   "note": "Exact reals. Quadratic, custom and softmax losses exactly; cross entropy with the shift by the smallest number inside the logarithm, which is bounded. False for answers strictly between 0 and 1 (any positive answer counts as 1: loss_xentropy_soft_answers), and the weighted losses use another condition than the one described (custom_not_as_described)."
  },
  {
   "property": "C81",
   "status": "partial",
   "theorems": [
    "Nntl.Act.output_gradient",
    "Nntl.Act.output_gradient_of_loss",
    "Nntl.Act.output_regular",
    "Nntl.Act.xentropy_gradient_eps",
    "Nntl.Act.clamp_harmless",
    "Nntl.Act.restrict_bounds",
    "Nntl.Act.restrict_one_sided",
    "Nntl.Act.wRes_jump",
    "Nntl.Act.softmax_gradient",
    "Nntl.Act.softmax_gradient_needs_distribution",
    "Nntl.Act.outGrad_runs"
   ],
   "note": "For cross entropy the derivative is that of the ideal loss; that of the reported one differs by the factor a/(a+eps) (xentropy_gradient_eps). Softmax needs answers that add up to 1. One weighted loss jumps, and has no derivative there (wRes_jump)."
  },
  {
   "property": "C82",
   "status": "proved",
   "theorems": [
    "Nntl.Gemm.preactivation",
    "Nntl.Gemm.preactivation_bias",
    "Nntl.Gemm.handed_down",
    "Nntl.Gemm.weight_gradient",
    "Nntl.Gemm.weight_gradient_needs_bias",
    "Nntl.Gemm.product",
    "Nntl.Gemm.product_transposed",
    "Nntl.Gemm.product_scaled",
    "Nntl.Gemm.covariance"
   ],
   "note": "Over any commutative ring. BLAS is represented by its contract. Nothing checks that the incoming activations have biases when the weight gradient is calculated: weight_gradient_needs_bias."
  },
  {
   "property": "C83",
   "status": "proved",
   "theorems": [
    "Nntl.Cols.mean_result",
    "Nntl.Cols.deMean_result",
    "Nntl.Cols.deMean_centred",
    "Nntl.Cols.deMeanNZ_result",
    "Nntl.Cols.deMeanNZ_centred",
    "Nntl.Cols.sub_result",
    "Nntl.Cols.mulDiag_result",
    "Nntl.Cols.deMean_runs",
    "Nntl.Cols.deMeanNZ_runs",
    "Nntl.Cols.mulDiag_runs",
    "Nntl.Cols.triangle_call",
    "Nntl.Cols.triangle_sum"
   ],
   "note": "Exact reals."
  },
  {
   "property": "C84",
   "status": "partial",
   "theorems": [
    "Nntl.DeCov.loss_value",
    "Nntl.DeCov.loss_runs",
    "Nntl.DeCov.penalty_zero_iff",
    "Nntl.DeCov.gradient_in_place",
    "Nntl.DeCov.gradient_value",
    "Nntl.DeCov.gradient_runs",
    "Nntl.DeCov.gradient_is_derivative",
    "Nntl.DeCov.addendum_loss",
    "Nntl.DeCov.addendum_gradient",
    "Nntl.DeCov.addendum_gradient_stored",
    "Nntl.DeCov.layout_ignored"
   ],
   "note": "Exact reals, BLAS by its contract, default layout. False for samples in columns, which nothing checks: layout_ignored."
  },
  {
   "property": "C85",
   "status": "partial",
   "theorems": [
    "Nntl.Backprop.tree_gradient",
    "Nntl.Backprop.training_step_gradient",
    "Nntl.Backprop.single_weights",
    "Nntl.Backprop.reported_loss",
    "Nntl.Backprop.reported_loss_softmax",
    "Nntl.Backprop.network_gradient",
    "Nntl.Backprop.gated_gradient_is_not_of_the_mean_loss"
   ],
   "note": "Exact reals. False for layers inside a pack of k tiles: their optimisers are given 1/k of the derivative (factor tiles in single_weights), and for layers under the gate of an optional pack (C106, gated_gradient_is_not_of_the_mean_loss). Dropout and penalties on activations are the subject of C99."
  },
  {
   "property": "C86",
   "status": "partial",
   "theorems": [
    "Nntl.Report.reported_value",
    "Nntl.Report.reported_mean_partial",
    "Nntl.Report.reported_times_batches",
    "Nntl.Report.reported_not_mean",
    "Nntl.Report.last_sample_not_counted",
    "Nntl.Report.diverged_iff",
    "Nntl.Report.walk_exists",
    "Nntl.Report.demo_report"
   ],
   "note": "Exact reals. False: the means of the batches are summed up, not averaged, so k equal batches give k times the mean (reported_times_batches, reported_not_mean); a last single sample is left out. True if the set fits into one forward pass: reported_mean_partial."
  },
  {
   "property": "C87",
   "status": "partial",
   "theorems": [
    "Nntl.Report.report_fresh",
    "Nntl.Report.report_after_any_history",
    "Nntl.Report.added_eq",
    "Nntl.Report.direct_call_stale",
    "Nntl.Report.late_addendum_ignored"
   ],
   "note": "True of the reports made by train(). False for calcLossAndReport called by a callback after the weights have changed (direct_call_stale) and for addenda switched on after initialisation (late_addendum_ignored). Addenda that depend on activations are those of the last batch."
  },
  {
   "property": "C88",
   "status": "proved",
   "theorems": [
    "Nntl.BgWork.exec_at_most_once",
    "Nntl.BgWork.exec_all_done",
    "Nntl.BgWork.exec_returns",
    "Nntl.BgWork.exec_function",
    "Nntl.BgWork.demo_exec"
   ],
   "note": "Sequentially consistent interleavings (see C91 for the data race on the flags)."
  },
  {
   "property": "C89",
   "status": "proved",
   "theorems": [
    "Nntl.BgWork.running_listed",
    "Nntl.BgWork.deleted_not_running",
    "Nntl.BgWork.delete_clears",
    "Nntl.BgWork.not_listed_not_called",
    "Nntl.BgWork.pass_follows",
    "Nntl.BgWork.pass_priorities",
    "Nntl.BgWork.no_pass_while_changing",
    "Nntl.BgWork.no_task_begun_under_flag",
    "Nntl.BgWork.demo_exec",
    "Nntl.BgWork.flag_exact",
    "Nntl.BgWork.flag_down_when_idle"
   ],
   "note": ""
  },
  {
   "property": "C90",
   "status": "partial",
   "theorems": [
    "Nntl.BgWork.no_deadlock",
    "Nntl.BgWork.no_lost_wakeup",
    "Nntl.BgWork.destructor_terminates",
    "Nntl.BgWork.flag_releases_lock",
    "Nntl.BgWork.exec_wait_bounded_partial",
    "Nntl.BgWork.exec_delayed_by_task"
   ],
   "note": "False of exec(): a thread that has looked at its flag just before exec() raises it goes over the tasks although exec() waits, as long as a task returns true (exec_delayed_by_task). Proved: no deadlock, the destructor terminates within 12 n + 2 steps, and the bound on the wait of exec() in terms of the tasks that return true."
  },
  {
   "property": "C91",
   "status": "partial",
   "theorems": [
    "Nntl.BgWork.no_race_partial",
    "Nntl.BgWork.flag_race"
   ],
   "note": "False: the flags m_threadHasSmth2Exec are read outside of the lock while exec() writes them (flag_race). True of the list of tasks and of the function."
  },
  {
   "property": "C92",
   "status": "partial",
   "theorems": [
    "Nntl.WInit.run_true_partial",
    "Nntl.WInit.run_true_good",
    "Nntl.WInit.run_false_first",
    "Nntl.WInit.run_small",
    "Nntl.WInit.dead_layer_accepted"
   ],
   "note": "False: a layer whose activations are all equal has the scale zero and is reported as normalised (dead_layer_accepted). Proved: everything else, for layers with finite statistics that are not constant (run_true_good) and in general up to that exception (run_true_partial)."
  },
  {
   "property": "C93",
   "status": "proved",
   "theorems": [
    "Nntl.WInit.run_flags",
    "Nntl.WInit.run_untouched",
    "Nntl.WInit.run_rescales"
   ],
   "note": ""
  },
  {
   "property": "C94",
   "status": "proved",
   "theorems": [
    "Nntl.WInit.lsuv_converges",
    "Nntl.WInit.lsuv_reaches",
    "Nntl.WInit.run_total"
   ],
   "note": "Over the real numbers."
  },
  {
   "property": "C95",
   "status": "partial",
   "theorems": [
    "Nntl.WInit.slope_centres_partial",
    "Nntl.WInit.steep_never_centred",
    "Nntl.WInit.chain_slope"
   ],
   "note": "False for slopes of the square root of two and more: the offset is multiplied by the slope where it should be divided (steep_never_centred), so each try multiplies the distance by 1 - c^2. For SELU (1.0507) that converges (slope_centres_partial)."
  },
  {
   "property": "C96",
   "status": "proved",
   "theorems": [
    "Nntl.WInit.heZhang_weights",
    "Nntl.WInit.draws_distinct"
   ],
   "note": ""
  },
  {
   "property": "C97",
   "status": "proved",
   "theorems": [
    "Nntl.WInit.orthoInit_orthogonal",
    "Nntl.WInit.orthoInit_false"
   ],
   "note": "The singular value decomposition of the library behind mSVD_Orthogonalize_ss is a hypothesis."
  },
  {
   "property": "C98",
   "status": "partial",
   "theorems": [
    "Nntl.WInit.martens_sparse_partial",
    "Nntl.WInit.martens_draws_distinct",
    "Nntl.WInit.martens_too_small",
    "Nntl.WInit.martens_total"
   ],
   "note": "False when the previous layer is smaller than the number of connections: a release build reads behind the array of the indices (martens_too_small). Proved for all other sizes."
  },
  {
   "property": "C99",
   "status": "partial",
   "theorems": [
    "Nntl.Backprop.extended_network_gradient",
    "Nntl.Backprop.ex_smooth",
    "Nntl.Backprop.exLayers_ok",
    "Nntl.Backprop.inference_without_dropout",
    "Nntl.Backprop.reported_objective_partial",
    "Nntl.Backprop.reported_penalty_gradient_false",
    "Nntl.Backprop.l2_value",
    "Nntl.Backprop.l1_value",
    "Nntl.Backprop.deCov_value",
    "Nntl.Backprop.l2_append",
    "Nntl.Backprop.l1_append",
    "Nntl.Backprop.deCov_append",
    "Nntl.Pass.lex_lawful"
   ],
   "note": "False as stated: the gradient is that of the mean loss plus the penalties divided by the batch size (extended_network_gradient, for all histories), while the reported loss has them undivided (reported_penalty_gradient_false is a network where the two differ; reported_objective_partial is the exact difference). Addendums that are appended to non-zero gradients only are not covered; gated packs are the subject of C106."
  }
 ]
}