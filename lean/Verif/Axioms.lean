import Verif.Threads.PartitionModel
import Verif.Threads.PartitionLemmas
import Verif.Threads.PartitionProps
import Verif.Threads.PoolModel
import Verif.Threads.PoolLemmas
import Verif.Threads.PoolInv
import Verif.Threads.PoolLog
import Verif.Threads.PoolProgress
import Verif.Threads.PoolProps
import Verif.Matrix.Model
import Verif.Matrix.Lemmas
import Verif.Matrix.Spec
import Verif.Matrix.BiasInv
import Verif.Matrix.TriangLemmas
import Verif.Matrix.Props
import Verif.Matrix.OwnModel
import Verif.Matrix.OwnLemmas
import Verif.Matrix.OwnProps
import Verif.Kernel.Writes
import Verif.Kernel.MoveModel
import Verif.Kernel.MoveLemmas
import Verif.Kernel.MoveProps
import Verif.TrainData.Model
import Verif.TrainData.Spec
import Verif.TrainData.Lemmas
import Verif.TrainData.Inv
import Verif.TrainData.Subset
import Verif.TrainData.Props
import Verif.TrainData.InitProps
import Verif.BinFile.Model
import Verif.BinFile.Spec
import Verif.BinFile.Lemmas
import Verif.BinFile.Props
import Verif.DataBuf.Model
import Verif.DataBuf.Spec
import Verif.DataBuf.Lemmas
import Verif.DataBuf.Props
import Verif.Train.Model
import Verif.Train.Spec
import Verif.Train.Lemmas
import Verif.Train.Props
import Verif.Train.OptsProps
import Verif.Kernel.Rmw
import Verif.Kernel.RowModel
import Verif.Kernel.RowSpec
import Verif.Kernel.RowLemmas
import Verif.Kernel.RowProps
import Verif.Eval.Model
import Verif.Eval.Spec
import Verif.Eval.Lemmas
import Verif.Eval.Props
import Verif.Istor.Model
import Verif.Istor.Spec
import Verif.Istor.Props
import Verif.Layers.Model
import Verif.Layers.Spec
import Verif.Layers.Lemmas
import Verif.Layers.MemLemmas
import Verif.Layers.Props
import Verif.Layers.BatchProps
import Verif.Pass.Model
import Verif.Pass.Spec
import Verif.Pass.Lemmas
import Verif.Pass.Horiz
import Verif.Pass.OptModel
import Verif.Pass.Opt
import Verif.Pass.NetModel
import Verif.Pass.Net
import Verif.Pass.FcModel
import Verif.Pass.Fc
import Verif.Pass.LoopModel
import Verif.Pass.LoopLemmas
import Verif.Pass.Tree
import Verif.Pass.Props
import Verif.Pass.Demo
import Verif.Kernel.Each
import Verif.KOrd.Model
import Verif.KOrd.Spec
import Verif.KOrd.Lemmas
import Verif.KOrd.Agg
import Verif.KOrd.Props
import Verif.Kernel.Elem
import Verif.Num.SoftmaxModel
import Verif.Num.Softmax
import Verif.Kernel.Reduce
import Verif.Grad.Kernels
import Verif.Grad.Model
import Verif.Grad.Spec
import Verif.Grad.Lemmas
import Verif.Grad.Func
import Verif.Grad.SessionLemmas
import Verif.Grad.StepLemmas
import Verif.Grad.MomentumProps
import Verif.Grad.Exists
import Verif.Grad.BlockedProps
import Verif.Grad.OptLemmas
import Verif.Grad.AdamProps
import Verif.Grad.GainProps
import Verif.Grad.NormProps
import Verif.Grad.AddendumProps
import Verif.Grad.OptProps
import Verif.Dropout.Model
import Verif.Dropout.Spec
import Verif.Dropout.Props
import Verif.Norm.Model
import Verif.Norm.Spec
import Verif.Norm.Lemmas
import Verif.Norm.LoopLemmas
import Verif.Norm.Props
import Verif.Utils.BwList
import Verif.Utils.BwListProps
import Verif.Utils.Confusion
import Verif.Utils.ConfusionProps
import Verif.Utils.Scores
import Verif.Utils.Settings
import Verif.Utils.SettingsProps
import Verif.Utils.Mixins
import Verif.Utils.MixinsProps
import Verif.Utils.Holder
import Verif.Utils.HolderProps
import Verif.Act.Model
import Verif.Act.Spec
import Verif.Act.Lemmas
import Verif.Act.DerivLemmas
import Verif.Act.Props
import Verif.Act.LossModel
import Verif.Act.LossSpec
import Verif.Act.LossProps
import Verif.Gemm.Model
import Verif.Gemm.Spec
import Verif.Gemm.Lemmas
import Verif.Gemm.Props
import Verif.Cols.Model
import Verif.Cols.Spec
import Verif.Cols.Lemmas
import Verif.Cols.Props
import Verif.DeCov.Model
import Verif.DeCov.Spec
import Verif.DeCov.Lemmas
import Verif.DeCov.Props
import Verif.Backprop.Spec
import Verif.Backprop.Lemmas
import Verif.Backprop.Tree
import Verif.Backprop.Net
import Verif.Backprop.Props
import Verif.Report.Model
import Verif.Report.Spec
import Verif.Report.Lemmas
import Verif.Report.Props
import Verif.BgWork.Props
import Verif.WInit.Slope
import Verif.WInit.StaticProps
import Verif.Backprop.LexProps
import Verif.Pass.DetProps
import Verif.Backprop.ReproProps
import Verif.Calls.Props
import Verif.GradCheck.Props
import Verif.GradCheck.Limit
import Verif.GradCheck.Demo
import Verif.Backprop.OptProps
import Verif.Rng.MatrixProps
import Verif.Sync.PrioProps
import Verif.MatFile.Props
import Verif.MatFile.ConvProps
import Verif.MatFile.ExProps
import Verif.JsonFile.Props
import Verif.Matrix.RetryProps
import Verif.TDStor.Props
import Verif.EW.Props
import Verif.EW.RowProps
import Verif.EW.NormProps
import Verif.DataBuf.AnyProps
import Verif.AsRng.SeedProps
import Verif.Session.DataProps
import Verif.Gw.Props
import Verif.NetFile.Wit
import Verif.Ttd.Wit
import Verif.SeqFile.Props
import Verif.SeqFile.Reject
import Verif.Dumper.Props
import Verif.NetState.Wit
import Verif.MtxTest.Wit
import Verif.Life.Wit
import Verif.Fwd.Wit
import Verif.LossAdd.Wit
import Verif.Text.Wit
import Verif.Tools.Wit
import Verif.Eval.ThrProps
import Verif.Sgd.Spec
import Verif.Sgd.Lemmas
import Verif.Sgd.Net
import Verif.Sgd.Props
import Verif.Sgd.Cases
import Verif.Sgd.WholeModel
import Verif.Sgd.WholeLemmas
import Verif.Sgd.WholeProps
import Verif.Sgd.WholeCases
import Verif.Sgd.AnySpec
import Verif.Sgd.AnyProps
import Verif.Sgd.AnyRules
import Verif.Sgd.AnyOpts
import Verif.Sgd.AnyCases
import Verif.Sgd.WholeAny
import Verif.Sgd.WholeAnyCases
import Verif.Sgd.AllSpec
import Verif.Sgd.AllOpts
import Verif.Sgd.AllProps
import Verif.Sgd.AllCases
import Verif.Sgd.MatSpec
import Verif.Sgd.MatLemmas
import Verif.Sgd.MatOpts
import Verif.Sgd.MatProps
import Verif.Sgd.MatCases
import Verif.Sgd.ExtSpec
import Verif.Sgd.ExtLemmas
import Verif.Sgd.ExtNet
import Verif.Sgd.ExtProps
import Verif.Sgd.ExtMatSpec
import Verif.Sgd.ExtMat
import Verif.Sgd.ExtMatProps
import Verif.Sgd.ExtCases
import Verif.Sgd.ExtWholeModel
import Verif.Sgd.ExtWholeLemmas
import Verif.Sgd.ExtWhole
import Verif.Sgd.ExtWholeCases
import Verif.Sgd.FreeLemmas
import Verif.Sgd.FreeProps
import Verif.Sgd.FreeCases
import Verif.GradCheck.Keep
import Verif.Matrix.ElemProps
import Verif.Grad.LocalProps
import Verif.Sgd.OrderProps
import Verif.Sgd.OrderCases
import Verif.Sgd.PenProps
import Verif.Sgd.PenCases
import Verif.Sgd.PenWhole
import Verif.Sgd.SubProps
import Verif.Sgd.SubCases
import Verif.Sgd.ShareProps
import Verif.Sgd.ShareCases
import Verif.Sgd.SymProps
import Verif.Sgd.SymNets
import Verif.Sgd.SymCases
import Verif.Sgd.PermProps
import Verif.Sgd.PermCases
import Verif.Sgd.PermWholeCases
import Verif.Sgd.UnseenProps
import Verif.Sgd.UnseenMore
import Verif.Sgd.UnseenCases
import Verif.Sgd.UnseenWholeCases
import Verif.Sgd.ScaleProps
import Verif.Sgd.ScaleCases
import Verif.Sgd.ScaleWholeCases
import Verif.Sgd.ScaleMore
import Verif.Sgd.ScaleMoreCases

/-!
# Axioms of the property theorems

Prints, during the build, the axioms every theorem named in MANIFEST.json depends on. Nothing but
`propext`, `Classical.choice` and `Quot.sound` may appear.
-/

#print axioms Nntl.Threads.run_processes_each_item_once
#print axioms Nntl.Threads.run_ranges_nonempty_in_bounds
#print axioms Nntl.Threads.run_ranges_balanced
#print axioms Nntl.Threads.run_tids
#print axioms Nntl.Threads.run_respects_useN
#print axioms Nntl.Threads.returned_call_executed_exactly
#print axioms Nntl.Threads.returned_call_processed_every_item_once
#print axioms Nntl.Threads.no_execution_outside_calls
#print axioms Nntl.Threads.running_call_executes_only_its_partition
#print axioms Nntl.Threads.call_never_stuck
#print axioms Nntl.Threads.thread_steps_bounded
#print axioms Nntl.Threads.call_returns
#print axioms Nntl.Threads.destroy_may_hang
#print axioms Nntl.Threads.destroy_terminates_partial
#print axioms Nntl.Threads.destroyed_pool_has_no_running_worker
#print axioms Nntl.Threads.reduce_cache_complete
#print axioms Nntl.Threads.reduce_sum
#print axioms Nntl.Threads.reduce_result
#print axioms Nntl.Matrix.element_in_storage
#print axioms Nntl.Matrix.distinct_elements_distinct_cells
#print axioms Nntl.Matrix.every_cell_is_an_element
#print axioms Nntl.Matrix.set_get
#print axioms Nntl.Matrix.constructed_biases
#print axioms Nntl.Matrix.resized_biases
#print axioms Nntl.Matrix.biases_stay_ones
#print axioms Nntl.Matrix.biases_ones_while_hidden
#print axioms Nntl.Matrix.clone_to_equal
#print axioms Nntl.Matrix.clone_to_succeeds
#print axioms Nntl.Matrix.Own.clone_independent
#print axioms Nntl.Matrix.clone_to_no_bias_extra_column
#print axioms Nntl.Matrix.clone_to_no_bias_exact_partial
#print axioms Nntl.Matrix.deform_stays_in_storage
#print axioms Nntl.Matrix.deform_keeps_data
#print axioms Nntl.Matrix.deform_batch_with_biases_keeps_data
#print axioms Nntl.Matrix.hide_restore_cols
#print axioms Nntl.Matrix.hide_restore_biases
#print axioms Nntl.Matrix.hide_restore_col
#print axioms Nntl.Matrix.transposition_twice
#print axioms Nntl.Matrix.hidden_resize_breaks_deform
#print axioms Nntl.Matrix.update_on_hidden_resize_ok
#print axioms Nntl.Matrix.resize_elements_then_deform
#print axioms Nntl.Backprop.training_is_reproducible
#print axioms Nntl.Backprop.evaluations_do_not_influence_training
#print axioms Nntl.Backprop.gradWorks_local
#print axioms Nntl.Backprop.gradWorks_pre
#print axioms Nntl.Backprop.gradWorks_apply
#print axioms Nntl.Backprop.fresh_twins
#print axioms Nntl.Pass.reproducible
#print axioms Nntl.Pass.reproducible_outputs
#print axioms Nntl.Pass.eval_leaves_twin
#print axioms Nntl.Pass.tree_det
#print axioms Nntl.Calls.hidden_forward
#print axioms Nntl.Calls.hidden_backward
#print axioms Nntl.Calls.output_forward
#print axioms Nntl.Calls.output_backward
#print axioms Nntl.Calls.hidden_fprop
#print axioms Nntl.Calls.hidden_bprop
#print axioms Nntl.Calls.out_fprop
#print axioms Nntl.Calls.out_bprop
#print axioms Nntl.GradCheck.gradcheck_verdict
#print axioms Nntl.GradCheck.gradcheck_refuses
#print axioms Nntl.GradCheck.counts_valid
#print axioms Nntl.GradCheck.demo_true
#print axioms Nntl.GradCheck.demo_false
#print axioms Nntl.GradCheck.amount_checked
#print axioms Nntl.GradCheck.analytical_fprop_keeps
#print axioms Nntl.GradCheck.gradcheck_changes_nothing_partial
#print axioms Nntl.GradCheck.gradcheck_reinitialises
#print axioms Nntl.GradCheck.passes_twin
#print axioms Nntl.GradCheck.compare_real
#print axioms Nntl.GradCheck.num_tendsto
#print axioms Nntl.GradCheck.correct_derivative_accepted_partial
#print axioms Nntl.GradCheck.wrong_derivative_rejected
#print axioms Nntl.GradCheck.zero_derivative_rejected
#print axioms Nntl.GradCheck.correct_zero_derivative_rejected
#print axioms Nntl.GradCheck.weight_penalties_not_checked
#print axioms Nntl.GradCheck.nan_accepted
#print axioms Nntl.GradCheck.idle_layer_accepted
#print axioms Nntl.GradCheck.line_example
#print axioms Nntl.GradCheck.gradcheck_defined_partial
#print axioms Nntl.GradCheck.gradcheck_full_batch_undefined
#print axioms Nntl.GradCheck.checkA_overflow
#print axioms Nntl.Backprop.gated_training_step
#print axioms Nntl.Backprop.gated_pack_gradient
#print axioms Nntl.Backprop.binary_gate_flat
#print axioms Nntl.Backprop.idGate_flat
#print axioms Nntl.Backprop.gated_gradient_is_not_of_the_mean_loss
#print axioms Nntl.Backprop.gate_input_gets_no_gradient
#print axioms Nntl.Rng.fill_exact
#print axioms Nntl.Rng.fill_returns_iff
#print axioms Nntl.Rng.fill_never_outside
#print axioms Nntl.Rng.pieces_partition
#print axioms Nntl.Rng.fill_schedule_free
#print axioms Nntl.Rng.result_depends_on_number_of_threads
#print axioms Nntl.Rng.vectors_in_range
#print axioms Nntl.Rng.symmetric_vector_in_range_rounded
#print axioms Nntl.Rng.gtz_integers_below
#print axioms Nntl.Rng.afrand_symmetric_in_range
#print axioms Nntl.Rng.cstd_in_range
#print axioms Nntl.Rng.gen_i_below
#print axioms Nntl.Rng.gen_i_too_big
#print axioms Nntl.Rng.cstd_gen_i
#print axioms Nntl.Rng.between_leaves_range_rounded
#print axioms Nntl.Rng.cstd_integers_reach_bound
#print axioms Nntl.Rng.bernoulli_follows_probability
#print axioms Nntl.Rng.ranges_covered_evenly
#print axioms Nntl.Rng.single_numbers
#print axioms Nntl.Rng.seed_sets_all_streams
#print axioms Nntl.Rng.seeded_streams_differ
#print axioms Nntl.Rng.seeded_calls_repeat
#print axioms Nntl.Rng.reseed_starts_over
#print axioms Nntl.Rng.construct_defined_iff
#print axioms Nntl.Rng.adjacent_constructions_share_streams
#print axioms Nntl.Rng.reseed_of_constructed_differs
#print axioms Nntl.Rng.seed64_fold
#print axioms Nntl.Matrix.Own.released_at_most_once
#print axioms Nntl.Matrix.Own.nothing_leaked
#print axioms Nntl.Matrix.Own.released_exactly_once
#print axioms Nntl.Matrix.Own.managed_storage_is_live
#print axioms Nntl.Matrix.Own.move_hands_over
#print axioms Nntl.Matrix.Own.clear_empties
#print axioms Nntl.Matrix.Own.moved_from_external_stuck
#print axioms Nntl.Rng.gen_matrix_any_fills
#print axioms Nntl.Rng.gen_matrix_no_bias_fills_partial
#print axioms Nntl.Rng.gen_matrix_fills
#print axioms Nntl.Rng.gen_matrix_no_bias_row_wrong
#print axioms Nntl.Rng.loop_fills
#print axioms Nntl.Rng.mt_normal_vector
#print axioms Nntl.Rng.helper_normal_vector_partial
#print axioms Nntl.Rng.helper_normal_vector_wrong
#print axioms Nntl.Rng.canonical_unit
#print axioms Nntl.Rng.cstd_canonical_stuck
#print axioms Nntl.Sync.spin_lock_excludes
#print axioms Nntl.Sync.spin_lock_serialises
#print axioms Nntl.Sync.spin_lock_free_is_taken
#print axioms Nntl.Sync.spin_lock_counter
#print axioms Nntl.Sync.spin_lock_starves
#print axioms Nntl.Sync.timed_wait_returns
#print axioms Nntl.Sync.timed_wait_never_times_out
#print axioms Nntl.Sync.timed_wait_overdue
#print axioms Nntl.Sync.wait_status_inverted
#print axioms Nntl.Sync.sleep_length
#print axioms Nntl.Sync.sleep_length_extremes
#print axioms Nntl.Sync.priorities_set
#print axioms Nntl.Sync.priorities_restored_partial
#print axioms Nntl.Sync.refused_request_undone
#print axioms Nntl.Sync.nested_priorities_restored
#print axioms Nntl.Sync.change_threads_priorities
#print axioms Nntl.Sync.pool_priority_lost
#print axioms Nntl.MatFile.saved_loads_back
#print axioms Nntl.MatFile.save_succeeds
#print axioms Nntl.MatFile.same_name_twice_lost
#print axioms Nntl.MatFile.loaded_as_its_name_says
#print axioms Nntl.MatFile.samples_without_biases_lose_column
#print axioms Nntl.MatFile.biases_become_data
#print axioms Nntl.MatFile.after_error_nothing_happens
#print axioms Nntl.MatFile.failed_save_partial
#print axioms Nntl.MatFile.failed_save_overwrites_with_incomplete
#print axioms Nntl.MatFile.pair_of_object_refused
#print axioms Nntl.MatFile.matrix_elements_converted_partial
#print axioms Nntl.MatFile.signed_elements_taken_for_unsigned
#print axioms Nntl.MatFile.negative_numbers_change
#print axioms Nntl.MatFile.wrong_variables_refused
#print axioms Nntl.MatFile.missing_field_refused
#print axioms Nntl.MatFile.open_refused
#print axioms Nntl.MatFile.open_result
#print axioms Nntl.MatFile.close_result
#print axioms Nntl.Matrix.upper_triangle_in_range
#print axioms Nntl.Matrix.upper_triangle_exactly_once
#print axioms Nntl.Matrix.lower_triangle_in_range
#print axioms Nntl.Matrix.lower_triangle_exactly_once
#print axioms Nntl.MatFile.structs_written_as_meant_partial
#print axioms Nntl.MatFile.by_hand_as_named_structs
#print axioms Nntl.MatFile.nested_update_is_undefined
#print axioms Nntl.MatFile.nested_update_reachable
#print axioms Nntl.MatFile.update_of_empty_kills_archive
#print axioms Nntl.MatFile.failed_read_loses_fields
#print axioms Nntl.MatFile.unmatched_calls_refused
#print axioms Nntl.JsonFile.json_matrix_read
#print axioms Nntl.JsonFile.json_matrix_refused
#print axioms Nntl.JsonFile.wrong_number_not_refused
#print axioms Nntl.JsonFile.read_again_after_no_memory
#print axioms Nntl.JsonFile.biases_for_used_matrix
#print axioms Nntl.JsonFile.json_train_data_read
#print axioms Nntl.JsonFile.json_train_data_refused
#print axioms Nntl.JsonFile.json_error_meaning_partial
#print axioms Nntl.JsonFile.invalid_reported_as_missing
#print axioms Nntl.Matrix.resize_has_memory_partial
#print axioms Nntl.Matrix.retry_after_failed_resize
#print axioms Nntl.Matrix.sizes_without_biases
#print axioms Nntl.TDStor.store_stays_coherent_partial
#print axioms Nntl.TDStor.transposed_labels_not_checked
#print axioms Nntl.TDStor.transposed_absorb_not_checked
#print axioms Nntl.TDStor.absorb_result
#print axioms Nntl.TDStor.extract_result
#print axioms Nntl.TDStor.assign_result
#print axioms Nntl.TDStor.replace_result
#print axioms Nntl.TDStor.dupe_result
#print axioms Nntl.TDStor.dupe_succeeds_partial
#print axioms Nntl.TDStor.transposed_not_duplicated
#print axioms Nntl.TDStor.transposition_keeps_samples
#print axioms Nntl.TDStor.transposition_twice
#print axioms Nntl.TDStor.transposeX_result
#print axioms Nntl.TDStor.transposeY_result
#print axioms Nntl.TDStor.transpose_result
#print axioms Nntl.EW.scale_and_offset
#print axioms Nntl.EW.scale_and_offset_nb
#print axioms Nntl.EW.scale
#print axioms Nntl.EW.scale_nb
#print axioms Nntl.EW.offset
#print axioms Nntl.EW.offset_nb
#print axioms Nntl.EW.mul_elements
#print axioms Nntl.EW.add_elements
#print axioms Nntl.EW.sub_elements
#print axioms Nntl.EW.add_scaled
#print axioms Nntl.EW.add_scaled_nonzero
#print axioms Nntl.EW.add_scaled_sign
#print axioms Nntl.EW.add_scaled_sign_nonzero
#print axioms Nntl.EW.sign_elements
#print axioms Nntl.EW.square_elements
#print axioms Nntl.EW.abs_elements
#print axioms Nntl.EW.sub_into
#print axioms Nntl.EW.mul_elements_nb_partial
#print axioms Nntl.EW.add_elements_nb_partial
#print axioms Nntl.EW.dropout_mask_partial
#print axioms Nntl.EW.sub_and_scale
#print axioms Nntl.EW.one_complement
#print axioms Nntl.EW.clamp_elements
#print axioms Nntl.EW.nb_operations_wrong_with_bias_row
#print axioms Nntl.TrainData.epoch_batches_are_distinct_samples
#print axioms Nntl.TrainData.epoch_available
#print axioms Nntl.EW.binarize_partial
#print axioms Nntl.EW.binarize_left_first_wrong
#print axioms Nntl.EW.row_or_partial
#print axioms Nntl.EW.row_or_returns
#print axioms Nntl.EW.row_or_wrong_with_negative_zero
#print axioms Nntl.EW.count_nonzeros
#print axioms Nntl.EW.count_nonzeros_strict_mod
#print axioms Nntl.EW.count_nonzeros_strict_partial
#print axioms Nntl.EW.count_strict_wraps
#print axioms Nntl.EW.sum_of_products
#print axioms Nntl.EW.row_or_wrong_with_negative_zero_double
#print axioms Nntl.EW.set_norm_partial
#print axioms Nntl.EW.set_norm_matrix_partial
#print axioms Nntl.EW.set_norm_zero_row
#print axioms Nntl.EW.set_norm_assertions
#print axioms Nntl.DataBuf.only_delivered_values
#print axioms Nntl.AsRng.filling_calls_fill
#print axioms Nntl.AsRng.filling_calls_in_range
#print axioms Nntl.AsRng.temporary_memory
#print axioms Nntl.AsRng.numbers_used_once_in_order_partial
#print axioms Nntl.AsRng.demo_reach
#print axioms Nntl.AsRng.init_prepares_partial
#print axioms Nntl.AsRng.init_protocol
#print axioms Nntl.AsRng.init_hides_failure
#print axioms Nntl.AsRng.constructed_streams_differ
#print axioms Nntl.AsRng.seeding_threads
#print axioms Nntl.AsRng.seed_leaves_old_numbers
#print axioms Nntl.Session.passes_fit
#print axioms Nntl.Session.promised_batches_accepted_partial
#print axioms Nntl.Session.training_revokes_promise
#print axioms Nntl.Session.inference_mode_partial
#print axioms Nntl.Session.fixed_pass_in_training_mode
#print axioms Nntl.TrainData.batch_rows_aligned
#print axioms Nntl.TrainData.subset_rows_aligned
#print axioms Nntl.Session.evaluation_keeps_training_partial
#print axioms Nntl.Session.bigger_evaluation_resets_optimisers
#print axioms Nntl.Session.scratch_for_data_partial
#print axioms Nntl.Session.bigger_evaluation_takes_scratch
#print axioms Nntl.Session.last_error_partial
#print axioms Nntl.Session.data_failure_not_recorded
#print axioms Nntl.Session.failed_layer_index
#print axioms Nntl.Session.failed_layer_index_is_stale
#print axioms Nntl.Session.fixed_walk_fits_partial
#print axioms Nntl.Session.train_walk_fits
#print axioms Nntl.Session.walk_overflows_network
#print axioms Nntl.Gw.settings_as_asked
#print axioms Nntl.Gw.gamma_as_asked_partial
#print axioms Nntl.Gw.nadam_forgets_gamma
#print axioms Nntl.Gw.init_never_fails_partial
#print axioms Nntl.Gw.steps_never_fail_partial
#print axioms Nntl.Gw.momentum_cannot_be_turned_on
#print axioms Nntl.Gw.dropout_cannot_be_turned_on
#print axioms Nntl.Gw.individual_rates_cannot_be_initialised
#print axioms Nntl.Gw.individual_rates_never_work
#print axioms Nntl.Gw.new_beginning_partial
#print axioms Nntl.Gw.moments_of_all_steps
#print axioms Nntl.NetFile.weights_survive
#print axioms Nntl.NetFile.write_succeeds
#print axioms Nntl.NetFile.names_differ
#print axioms Nntl.NetFile.true_but_lost
#print axioms Nntl.NetFile.uninitialised_written
#print axioms Nntl.NetFile.read_any
#print axioms Nntl.NetFile.stays_usable
#print axioms Nntl.NetFile.read_up_to
#print axioms Nntl.NetFile.false_but_overwritten
#print axioms Nntl.NetFile.tiles_overwritten
#print axioms Nntl.Ttd.epoch_uses_distinct_samples
#print axioms Nntl.Ttd.epoch_available
#print axioms Nntl.Ttd.batch_in_range
#print axioms Nntl.Ttd.walk_visits_all_partial
#print axioms Nntl.Ttd.walk_misses_last
#print axioms Nntl.Ttd.walk_available
#print axioms Nntl.Ttd.walk_beyond_count
#print axioms Nntl.Ttd.walk_aborts
#print axioms Nntl.TrainData.walk_loses_a_sample
#print axioms Nntl.TrainData.walk_misses_last_sample
#print axioms Nntl.TrainData.walk_visits_all_partial
#print axioms Nntl.TrainData.walk_visits
#print axioms Nntl.Ttd.train_sizes
#print axioms Nntl.Ttd.train_succeeds_iff
#print axioms Nntl.Ttd.inference_sizes
#print axioms Nntl.Ttd.train_error_partial
#print axioms Nntl.Ttd.inference_error_partial
#print axioms Nntl.Ttd.bad_request_keeps_old
#print axioms Nntl.Ttd.refused_but_initialised
#print axioms Nntl.Ttd.wrapped_size_accepted
#print axioms Nntl.Ttd.normalisation_kept
#print axioms Nntl.Ttd.normalising_keeps_init_partial
#print axioms Nntl.Ttd.normalising_uninitialises
#print axioms Nntl.Ttd.normalising_loses_training
#print axioms Nntl.Ttd.normalising_too_big_fails
#print axioms Nntl.SeqFile.seq_round_trip
#print axioms Nntl.SeqFile.truncated_sequences_rejected
#print axioms Nntl.SeqFile.successful_read_full
#print axioms Nntl.SeqFile.bad_header_rejected
#print axioms Nntl.SeqFile.nameless_sequence_rejected
#print axioms Nntl.SeqFile.excess_sequence_rejected
#print axioms Nntl.SeqFile.occupied_object_kept
#print axioms Nntl.SeqFile.incoherent_content_never
#print axioms Nntl.SeqFile.read_after_clear
#print axioms Nntl.SeqFile.failed_read_occupies
#print axioms Nntl.SeqFile.failed_preallocation_inconsistent
#print axioms Nntl.SeqFile.class_number_too_big_ub
#print axioms Nntl.SeqFile.too_many_sequences_ub
#print axioms Nntl.Dumper.training_files
#print axioms Nntl.Dumper.names_fit
#print axioms Nntl.Dumper.batch_file
#print axioms Nntl.Dumper.err_file
#print axioms Nntl.Dumper.only_wanted
#print axioms Nntl.Dumper.names_differ
#print axioms Nntl.Dumper.demo
#print axioms Nntl.Dumper.negative_epoch
#print axioms Nntl.Dumper.default_epoch_sticks
#print axioms Nntl.Dumper.file_variables
#print axioms Nntl.Dumper.only_allowed
#print axioms Nntl.Dumper.every_allowed
#print axioms Nntl.Dumper.forbidden_absent
#print axioms Nntl.Dumper.retraining_forgets
#print axioms Nntl.Dumper.off_writes_nothing
#print axioms Nntl.Dumper.turned_off_inside
#print axioms Nntl.Dumper.long_directory
#print axioms Nntl.Dumper.note_outside
#print axioms Nntl.NetState.saved_contains
#print axioms Nntl.NetState.saving_succeeds
#print axioms Nntl.NetState.loaded_is_saved
#print axioms Nntl.NetState.optimiser_never_loaded
#print axioms Nntl.NetState.optimiser_lost
#print axioms Nntl.NetState.alpha_lost
#print axioms Nntl.NetState.biases_lost
#print axioms Nntl.NetState.new_dropout_refused
#print axioms Nntl.NetState.load_governed
#print axioms Nntl.NetState.sizes_not_checked
#print axioms Nntl.NetState.tiles_not_governed
#print axioms Nntl.TrainData.init4train_success
#print axioms Nntl.TrainData.init4train_failure
#print axioms Nntl.TrainData.init4train_error_code
#print axioms Nntl.TrainData.coherence_asserted
#print axioms Nntl.MtxTest.binary_tells
#print axioms Nntl.MtxTest.binary_strict_tells
#print axioms Nntl.MtxTest.binary_strict_no_bias_tells
#print axioms Nntl.MtxTest.almost_binary_tells
#print axioms Nntl.MtxTest.no_nans_tells
#print axioms Nntl.MtxTest.Wit.strict_no_bias_wrong
#print axioms Nntl.MtxTest.Wit.almost_refuses_neighbour
#print axioms Nntl.MtxTest.Wit.nans_fills
#print axioms Nntl.MtxTest.biases_strict_tells
#print axioms Nntl.MtxTest.biases_holey_tells_partial
#print axioms Nntl.MtxTest.biases_ok_tells_partial
#print axioms Nntl.MtxTest.if_biases_tells
#print axioms Nntl.MtxTest.holey_columns_never_answers
#print axioms Nntl.MtxTest.holey_columns_few_checked
#print axioms Nntl.MtxTest.Wit.holey_columns_wrong
#print axioms Nntl.MtxTest.biases_copied
#print axioms Nntl.MtxTest.biases_copied_from_matrix
#print axioms Nntl.MtxTest.flag_stays_true_partial
#print axioms Nntl.MtxTest.check_accepts_partial
#print axioms Nntl.MtxTest.Wit.nans_no_bias_loses_flag
#print axioms Nntl.MtxTest.Wit.nans_overwrites_biases
#print axioms Nntl.MtxTest.Wit.count_is_believed
#print axioms Nntl.MtxTest.submatrix_shows_partial
#print axioms Nntl.MtxTest.submatrix_def_shows
#print axioms Nntl.MtxTest.use_storage_cols_shows
#print axioms Nntl.MtxTest.use_storage_no_bias_shows
#print axioms Nntl.MtxTest.use_storage_shows
#print axioms Nntl.MtxTest.writes_keep_biases
#print axioms Nntl.MtxTest.Wit.submatrix_shows_biases
#print axioms Nntl.MtxTest.Wit.submatrix_forgets_layout
#print axioms Nntl.MtxTest.orthogonal_tells
#print axioms Nntl.MtxTest.orthogonal_nans
#print axioms Nntl.Life.lifetimes_partial
#print axioms Nntl.Life.destructor_ends
#print axioms Nntl.Life.construct_tells
#print axioms Nntl.Life.copy_destroys_twice
#print axioms Nntl.Life.copy_uses_the_destroyed
#print axioms Nntl.Life.lack_of_memory
#print axioms Nntl.Life.careful_is_safe
#print axioms Nntl.Life.generator_dangles
#print axioms Nntl.Life.generator_not_reusable
#print axioms Nntl.Life.generator_with_pool
#print axioms Nntl.Life.layers_of_another
#print axioms Nntl.Life.layers_dangle
#print axioms Nntl.Life.layers_without_data
#print axioms Nntl.Life.shared_math_aborts
#print axioms Nntl.Life.shared_math_deinit_aborts
#print axioms Nntl.Life.shared_math_by_chance
#print axioms Nntl.Life.one_careful
#print axioms Nntl.Life.layers_reused
#print axioms Nntl.Fwd.handles_are_values
#print axioms Nntl.Fwd.storage_fits
#print axioms Nntl.Fwd.empty_and_null
#print axioms Nntl.Fwd.overaligned_functor
#print axioms Nntl.Fwd.kept_copy
#print axioms Nntl.Fwd.copy_is_private
#print axioms Nntl.TrainData.is_initialized4train_wrong_answer
#print axioms Nntl.TrainData.is_initialized4train_iff_partial
#print axioms Nntl.Fwd.kept_reference
#print axioms Nntl.Fwd.dangling_reference
#print axioms Nntl.Fwd.address_reused
#print axioms Nntl.Fwd.task_keeps_copy
#print axioms Nntl.Fwd.temporary_tasks
#print axioms Nntl.Fwd.temporary_task_dangles
#print axioms Nntl.Fwd.run_constant_functor
#print axioms Nntl.Fwd.run_shares_big
#print axioms Nntl.Fwd.run_splits_small
#print axioms Nntl.Fwd.size_decides_sum
#print axioms Nntl.LossAdd.settings_last
#print axioms Nntl.LossAdd.settings_accepted
#print axioms Nntl.LossAdd.has_addendum
#print axioms Nntl.LossAdd.setter_resets_mode
#print axioms Nntl.LossAdd.same_type_shares_mode
#print axioms Nntl.LossAdd.loss_value
#print axioms Nntl.LossAdd.loss_gradient
#print axioms Nntl.LossAdd.loss_gradient_sum
#print axioms Nntl.LossAdd.demo_reg
#print axioms Nntl.LossAdd.init_succeeds
#print axioms Nntl.LossAdd.init_effects
#print axioms Nntl.LossAdd.demo_init
#print axioms Nntl.LossAdd.batch_after_history
#print axioms Nntl.LossAdd.zero_stays
#print axioms Nntl.LossAdd.penalty_value
#print axioms Nntl.LossAdd.local_L1_L2
#print axioms Nntl.LossAdd.demo_batch
#print axioms Nntl.LossAdd.late_switch_on
#print axioms Nntl.LossAdd.order_matters
#print axioms Nntl.LossAdd.gate_in_value
#print axioms Nntl.Text.report_contents
#print axioms Nntl.Text.simple_report_contents
#print axioms Nntl.Text.report_printed_partial
#print axioms Nntl.Text.simple_report_printed_partial
#print axioms Nntl.Text.set_report_printed
#print axioms Nntl.Text.set_report_contents
#print axioms Nntl.Text.divergence_after_report
#print axioms Nntl.Text.exploding_loss_aborts
#print axioms Nntl.Text.exploding_loss_aborts_simple
#print axioms Nntl.Text.diverging_training_aborts
#print axioms Nntl.Text.ten_to_thirty_aborts
#print axioms Nntl.Text.start_printed
#print axioms Nntl.Text.time_printed
#print axioms Nntl.Text.gradcheck_messages_printed
#print axioms Nntl.Text.set_names
#print axioms Nntl.Text.layer_name_printed
#print axioms Nntl.Text.layer_names_differ
#print axioms Nntl.Text.type_ids_differ
#print axioms Nntl.Text.library_type_ids
#print axioms Nntl.Text.long_layer_name_aborts
#print axioms Nntl.Text.type_ids_collide
#print axioms Nntl.BinFile.train_data_round_trip
#print axioms Nntl.BinFile.matrix_round_trip
#print axioms Nntl.BinFile.bias_is_one
#print axioms Nntl.Tools.timer_holds
#print axioms Nntl.Tools.timer_runs
#print axioms Nntl.Tools.timer_text
#print axioms Nntl.Tools.demo_timer
#print axioms Nntl.Tools.first_lost
#print axioms Nntl.Tools.nanoseconds_readable
#print axioms Nntl.Tools.readable_partial
#print axioms Nntl.Tools.long_seconds_wrong
#print axioms Nntl.Tools.hour_shown_wrong
#print axioms Nntl.Tools.sizes_kept
#print axioms Nntl.Tools.mul_div
#print axioms Nntl.Tools.div_exact_partial
#print axioms Nntl.Tools.div_loses_training
#print axioms Nntl.Tools.sizes_checked
#print axioms Nntl.Tools.loops
#print axioms Nntl.Tools.loops_one
#print axioms Nntl.Tools.loop_with_previous
#print axioms Nntl.Tools.denormals_switch
#print axioms Nntl.Tools.any_thread
#print axioms Nntl.Tools.flushed_in_training
#print axioms Nntl.Tools.inference_elsewhere
#print axioms Nntl.Tools.scoped_rounding
#print axioms Nntl.Tools.field_reported
#print axioms Nntl.Eval.labels_judged_by_threshold_of_init
#print axioms Nntl.Eval.threshold_set_before_init_partial
#print axioms Nntl.Eval.other_sets_judged_by_present_threshold
#print axioms Nntl.Eval.threshold_changed_after_init
#print axioms Nntl.Eval.labels_prepared_iff
#print axioms Nntl.Eval.count_same_counts
#print axioms Nntl.Eval.count_same_batch_counts
#print axioms Nntl.Sgd.answers_are_a_function
#print axioms Nntl.Sgd.evaluation_keeps_weights
#print axioms Nntl.Sgd.training_step_is_descent
#print axioms Nntl.Sgd.gradWorks_plain
#print axioms Nntl.Sgd.gradWorks_blocked
#print axioms Nntl.Sgd.regular_elementwise
#print axioms Nntl.Sgd.regular_softmax
#print axioms Nntl.Sgd.training_is_gradient_descent
#print axioms Nntl.Sgd.same_training_same_weights
#print axioms Nntl.BinFile.truncated_train_data_rejected
#print axioms Nntl.BinFile.truncated_matrix_rejected
#print axioms Nntl.BinFile.read_train_data_total
#print axioms Nntl.Sgd.small_descent_lowers
#print axioms Nntl.Sgd.small_rates_lower_the_loss
#print axioms Nntl.Sgd.output_bias_slope
#print axioms Nntl.Sgd.whole_training_is_gradient_descent
#print axioms Nntl.Sgd.successful_training_is_gradient_descent
#print axioms Nntl.Sgd.whole_training_exists
#print axioms Nntl.Sgd.cells_weights
#print axioms Nntl.Sgd.evaluation_keeps_cells
#print axioms Nntl.Sgd.answers_with_any_optimisers
#print axioms Nntl.Sgd.every_optimiser_gets_the_derivatives
#print axioms Nntl.Sgd.training_follows_the_optimisers
#print axioms Nntl.Sgd.training_follows_the_rules
#print axioms Nntl.Sgd.gradWorks_momentum
#print axioms Nntl.Sgd.gradWorks_nesterov
#print axioms Nntl.Sgd.gradWorks_adam
#print axioms Nntl.Sgd.gradWorks_rmsprop
#print axioms Nntl.Sgd.whole_training_follows_the_optimisers
#print axioms Nntl.Sgd.whole_training_follows_the_rules
#print axioms Nntl.Sgd.gradWorks_methods
#print axioms Nntl.Sgd.new_works_remember
#print axioms Nntl.Sgd.training_follows_the_methods
#print axioms Nntl.Sgd.whole_training_follows_the_methods
#print axioms Nntl.Sgd.training_with_every_setting
#print axioms Nntl.Sgd.whole_training_with_every_setting
#print axioms Nntl.Sgd.new_works_stand
#print axioms Nntl.Sgd.training_follows_the_mat_rules
#print axioms Nntl.Sgd.whole_training_follows_the_mat_rules
#print axioms Nntl.Sgd.lengths_stay_within_limits
#print axioms Nntl.Sgd.limits_hold_after_paths
#print axioms Nntl.Sgd.blocked_learning_keeps_weights
#print axioms Nntl.Sgd.frozen_layers_keep_their_weights_partial
#print axioms Nntl.Sgd.frozen_layers_may_shrink
#print axioms Nntl.Sgd.evaluation_draws_nothing
#print axioms Nntl.Sgd.one_draw_per_training_step
#print axioms Nntl.Sgd.evaluation_uses_the_whole_network
#print axioms Nntl.Sgd.training_shows_the_thinned_network
#print axioms Nntl.Sgd.optimisers_get_derivatives_of_the_thinned_loss
#print axioms Nntl.Sgd.training_descends_on_thinned_losses
#print axioms Nntl.Sgd.regularOn_elementwise
#print axioms Nntl.Sgd.dropout_training_with_every_setting
#print axioms Nntl.Sgd.lengths_stay_within_limits_with_dropout
#print axioms Nntl.Sgd.blocked_learning_keeps_weights_with_dropout
#print axioms Nntl.Sgd.training_on_thinned_losses_follows_the_mat_rules
#print axioms Nntl.BinFile.short_header_rejected
#print axioms Nntl.BinFile.wrong_signature_rejected
#print axioms Nntl.BinFile.wrong_version_rejected
#print axioms Nntl.BinFile.wrong_field_count_rejected
#print axioms Nntl.BinFile.wrong_field_count_rejected_matrix
#print axioms Nntl.BinFile.seq_classes_rejected
#print axioms Nntl.BinFile.zero_dimension_rejected
#print axioms Nntl.BinFile.unknown_name_rejected
#print axioms Nntl.BinFile.unknown_type_rejected
#print axioms Nntl.BinFile.duplicate_field_rejected
#print axioms Nntl.BinFile.zero_dimension_rejected_matrix
#print axioms Nntl.BinFile.unknown_type_rejected_matrix
#print axioms Nntl.Sgd.Thin.whole_training_on_thinned_losses
#print axioms Nntl.Sgd.Thin.whole_training_on_thinned_losses_follows_the_mat_rules
#print axioms Nntl.Sgd.Thin.whole_dropout_training_with_every_setting
#print axioms Nntl.Sgd.Thin.whole_training_exists
#print axioms Nntl.Sgd.lengths_stay_within_limits_always
#print axioms Nntl.Sgd.frozen_layers_keep_their_weights_always_partial
#print axioms Nntl.Sgd.blocked_learning_keeps_weights_always
#print axioms Nntl.Sgd.Thin.whole_training_ends_within_limits
#print axioms Nntl.Sgd.Thin.whole_training_keeps_frozen_layers_partial
#print axioms Nntl.Sgd.Thin.whole_training_with_blocked_learning_keeps_weights
#print axioms Nntl.Grad.optimiser_writes_only_its_matrices
#print axioms Nntl.Grad.neurons_do_not_influence_each_other
#print axioms Nntl.Grad.weights_do_not_influence_each_other
#print axioms Nntl.Grad.limit_couples_the_weights_of_a_neuron
#print axioms Nntl.Sgd.reordered_same_loss
#print axioms Nntl.Sgd.order_in_batches_is_irrelevant
#print axioms Nntl.Sgd.full_batch_training_ignores_the_order
#print axioms Nntl.Sgd.batch_step_is_mean_of_single_steps
#print axioms Nntl.Sgd.gradWorks_decaying
#print axioms Nntl.Sgd.penalised_step_is_descent
#print axioms Nntl.Sgd.penalised_training_is_gradient_descent
#print axioms Nntl.Sgd.same_penalised_training_same_weights
#print axioms Nntl.Sgd.whole_penalised_training
#print axioms Nntl.Sgd.small_penalised_step_lowers
#print axioms Nntl.Sgd.small_rates_lower_the_penalised_loss
#print axioms Nntl.Sgd.penalised_is_reported
#print axioms Nntl.Sgd.tiled_layers_decay_more
#print axioms Nntl.Sgd.tiled_penalty_is_not_the_reported_one
#print axioms Nntl.Sgd.penalised_step_is_subgradient_descent
#print axioms Nntl.Sgd.penalised_training_is_subgradient_descent
#print axioms Nntl.Sgd.whole_penalised_training_is_subgradient_descent
#print axioms Nntl.Sgd.Shape.Ok.subPath_unique
#print axioms Nntl.Sgd.Penalty.Least.unique
#print axioms Nntl.Sgd.shares_same_loss
#print axioms Nntl.Sgd.repeated_shares
#print axioms Nntl.Sgd.Reordered.shares
#print axioms Nntl.Sgd.only_shares_in_batches_matter
#print axioms Nntl.Sgd.full_batch_training_sees_shares_only
#print axioms Nntl.Sgd.relabelled_networks_train_alike
#print axioms Nntl.Sgd.symmetry_stays
#print axioms Nntl.Sgd.whole_training_keeps_symmetry
#print axioms Nntl.Sgd.inner_neurons_can_change_places
#print axioms Nntl.Sgd.top_neurons_can_change_places
#print axioms Nntl.Sgd.twins_stay_twins
#print axioms Nntl.Sgd.twins_stay_twins_in_whole_training
#print axioms Nntl.Sgd.top_twins_stay_twins
#print axioms Nntl.Sgd.top_twins_stay_twins_in_whole_training
#print axioms Nntl.Sgd.dropping_separates_twins
#print axioms Nntl.Sgd.carried_training
#print axioms Nntl.Sgd.order_of_features_is_irrelevant
#print axioms Nntl.Sgd.order_of_outputs_is_irrelevant
#print axioms Nntl.Sgd.carried_full_training
#print axioms Nntl.Sgd.order_of_features_in_whole_training
#print axioms Nntl.Sgd.order_of_outputs_in_whole_training
#print axioms Nntl.Sgd.fair_elementwise
#print axioms Nntl.Sgd.fair_softmax
#print axioms Nntl.BinFile.failed_read_leaves_data
#print axioms Nntl.Sgd.weights_without_derivatives_stay
#print axioms Nntl.Sgd.unseen_features_keep_their_weights
#print axioms Nntl.Sgd.unseen_features_in_whole_training
#print axioms Nntl.Sgd.unseen_features_have_no_influence
#print axioms Nntl.Sgd.penalties_move_unseen_weights
#print axioms Nntl.Sgd.scale_of_the_loss
#print axioms Nntl.Sgd.scale_of_the_loss_in_whole_training
#print axioms Nntl.Sgd.penalties_see_the_scale
#print axioms Nntl.Sgd.slow_same
#print axioms Nntl.Sgd.scale_of_the_loss_for_adam
#print axioms Nntl.Sgd.scale_of_the_loss_for_adam_in_whole_training
#print axioms Nntl.Sgd.first_step_of_rms_grows
#print axioms Nntl.Sgd.even_same
#print axioms Nntl.Sgd.even_same_in_training
#print axioms Nntl.DataBuf.buffer_is_fifo
#print axioms Nntl.DataBuf.buffer_is_fifo_several
#print axioms Nntl.DataBuf.feed_eq
#print axioms Nntl.DataBuf.never_overclaims_partial
#print axioms Nntl.DataBuf.bounded_producers_never_overclaim_partial
#print axioms Nntl.DataBuf.claim_amount
#print axioms Nntl.DataBuf.overclaim
#print axioms Nntl.DataBuf.overclaim_loses_data
#print axioms Nntl.DataBuf.release_removes_acquired_partial
#print axioms Nntl.DataBuf.move_data_partial
#print axioms Nntl.DataBuf.zero_release_loses_data
#print axioms Nntl.Train.train_shape
#print axioms Nntl.Train.train_runs_epochs_partial
#print axioms Nntl.Train.train_outcomes
#print axioms Nntl.Train.diverged_epoch_never_ends
#print axioms Nntl.Train.diverged_iff
#print axioms Nntl.Train.diverged_stops
#print axioms Nntl.Train.nan_loss_goes_unnoticed
#print axioms Nntl.Train.reports_exact
#print axioms Nntl.Train.reports_follow_flags_partial
#print axioms Nntl.Train.unflagged_epoch_is_reported
#print axioms Nntl.Train.setLoop_spec
#print axioms Nntl.Train.flagsFrom_spec
#print axioms Nntl.Train.flagsStride_spec
#print axioms Nntl.Train.flagsDefault_spec
#print axioms Nntl.Train.flagsFrom_zero_start
#print axioms Nntl.Train.sizes_consistent
#print axioms Nntl.Train.size_setters
#print axioms Nntl.Train.accepted_sizes_may_not_initialise
#print axioms Nntl.Eval.loss_one_batch_partial
#print axioms Nntl.Eval.loss_equal_batches_partial
#print axioms Nntl.Eval.loss_depends_on_batching
#print axioms Nntl.Eval.accuracy_binary
#print axioms Nntl.Eval.accuracy_binary_other
#print axioms Nntl.Eval.accuracy_one_hot_partial
#print axioms Nntl.Eval.accuracy_one_hot_other_partial
#print axioms Nntl.Eval.accuracy_depends_on_batching
#print axioms Nntl.Eval.walk_label_batches
#print axioms Nntl.Layers.construct_succeeds_iff
#print axioms Nntl.Layers.layer_indices
#print axioms Nntl.Layers.layer_indices_distinct
#print axioms Nntl.Layers.layer_used_twice_refused
#print axioms Nntl.Layers.too_many_layers_share_indices
#print axioms Nntl.Layers.horizontal_pack_refused_iff
#print axioms Nntl.Layers.horizontal_pack_refused_iff_release_partial
#print axioms Nntl.Layers.accepted_packs_cover
#print axioms Nntl.Layers.optional_pack_fields_separate
#print axioms Nntl.Layers.optional_pack_accepts
#print axioms Nntl.Layers.field_outside_is_undefined
#print axioms Nntl.Layers.memory_sufficient_partial
#print axioms Nntl.Layers.no_memory_needed
#print axioms Nntl.Layers.pack_slices_apart_from_inner
#print axioms Nntl.Layers.fprop_memory_may_be_short
#print axioms Nntl.Layers.layers_initialised_for_their_rows
#print axioms Nntl.Pass.wrapper_shows_field_with_ones_and_restores
#print axioms Nntl.Pass.tree_leaves_lower_activations
#print axioms Nntl.Pass.horizontal_output_layout
#print axioms Nntl.Pass.horizontal_gradient_is_sum
#print axioms Nntl.Pass.every_layer_gets_its_gradient
#print axioms Nntl.Pass.tree_passes_partial
#print axioms Nntl.Pass.training_step_spec
#print axioms Nntl.Pass.vertical_pack_calls_partial
#print axioms Nntl.Pass.vertical_pack_with_stopping_layer_wrong
#print axioms Nntl.Pass.gated_rows
#print axioms Nntl.Pass.gated_rows_rowwise
#print axioms Nntl.Istor.live_blocks_disjoint_inside
#print axioms Nntl.Istor.full_capacity_after_release
#print axioms Nntl.Istor.overflow_detected
#print axioms Nntl.Istor.out_of_order_release_detected
#print axioms Nntl.Istor.preinit_without_init_gives_block_outside
#print axioms Nntl.Istor.rounded_arrays_do_not_share_lines
#print axioms Nntl.Kernel.argmax_is_max_partial
#print axioms Nntl.Kernel.argmax_first_partial
#print axioms Nntl.Kernel.argmax_by_rows_first
#print axioms Nntl.Kernel.argmax_cw_first
#print axioms Nntl.Kernel.argmax_rw_small_first
#print axioms Nntl.Kernel.argmax_depends_on_threading
#print axioms Nntl.Kernel.cw_threads_used
#print axioms Nntl.Kernel.row_max
#print axioms Nntl.Kernel.row_max_rw
#print axioms Nntl.Kernel.row_max_rw_small
#print axioms Nntl.Kernel.row_sum
#print axioms Nntl.Kernel.row_sum_by_rows
#print axioms Nntl.Kernel.row_sum_mt_cw
#print axioms Nntl.Kernel.row_sum_ip
#print axioms Nntl.Kernel.tiling_roll_read
#print axioms Nntl.Kernel.tiling_roll_write
#print axioms Nntl.Kernel.tiling_unroll_read
#print axioms Nntl.Kernel.tiling_unroll_write
#print axioms Nntl.Kernel.unroll_after_roll
#print axioms Nntl.Kernel.roll_after_unroll
#print axioms Nntl.Kernel.clone_cols_zero_count_wrong
#print axioms Nntl.Kernel.clone_cols_partial
#print axioms Nntl.Kernel.clone_col
#print axioms Nntl.Kernel.extract_rows
#print axioms Nntl.Kernel.extract_cols
#print axioms Nntl.Kernel.extract_rows_seq
#print axioms Nntl.Kernel.extract_batches
#print axioms Nntl.Kernel.transpose_seq_read
#print axioms Nntl.Kernel.transpose_seq_write
#print axioms Nntl.Kernel.transpose_spec
#print axioms Nntl.Kernel.transpose_ignore_bias_spec
#print axioms Nntl.Kernel.transpose_twice
#print axioms Nntl.KOrd.k_best_distinct_in_every_column
#print axioms Nntl.KOrd.k_biggest_distinct
#print axioms Nntl.KOrd.k_smallest_distinct
#print axioms Nntl.KOrd.k_best_in_every_column
#print axioms Nntl.KOrd.search_leaves_the_rest
#print axioms Nntl.KOrd.aggregation_locates_the_best_partial
#print axioms Nntl.KOrd.aggregation_loses_values_with_ties
#print axioms Nntl.KOrd.aggregation_loses_values_with_free_places
#print axioms Nntl.Num.softmax_result
#print axioms Nntl.Num.softmax_is_distribution
#print axioms Nntl.Num.softmax_shift_invariant
#print axioms Nntl.Num.softmax_no_overflow
#print axioms Nntl.Num.softmax_temp_layout
#print axioms Nntl.Num.softmax_runs
#print axioms Nntl.Grad.velocity_is_weighted_sum
#print axioms Nntl.Grad.velocity_constant_settings
#print axioms Nntl.Grad.momentum_step
#print axioms Nntl.Grad.nesterov_lookahead
#print axioms Nntl.Grad.nesterov_total
#print axioms Nntl.Grad.momentum_accumulates_plain_step
#print axioms Nntl.Grad.blocked_apply_changes_nothing
#print axioms Nntl.Grad.blocked_pre_changes_nothing
#print axioms Nntl.Grad.blocked_calls_are_invisible
#print axioms Nntl.Grad.zero_rate_keeps_weights_partial
#print axioms Nntl.Grad.zero_rate_moves_weights
#print axioms Nntl.Grad.zero_rate_changes_optimiser
#print axioms Nntl.Grad.session_machine_independent
#print axioms Nntl.Grad.adam_bookkeeping
#print axioms Nntl.Grad.adam_constant_betas
#print axioms Nntl.Grad.adam_update
#print axioms Nntl.Grad.adam_bias_correction
#print axioms Nntl.Grad.gains_positive
#print axioms Nntl.Grad.gains_follow_gradient_signs
#print axioms Nntl.Grad.gains_follow_steps
#print axioms Nntl.Grad.gains_follow_velocity
#print axioms Nntl.Grad.gainRule_direction
#print axioms Nntl.Grad.gains_stay_inside
#print axioms Nntl.Grad.check_normalize_rows
#print axioms Nntl.Grad.apply_grad_bounds_rows
#print axioms Nntl.Grad.session_rows_bounded
#print axioms Nntl.Dropout.dropout_history
#print axioms Nntl.Dropout.history_exists
#print axioms Nntl.Dropout.late_switch_fails
#print axioms Nntl.Norm.statistics_compose
#print axioms Nntl.Norm.whole_replay
#print axioms Nntl.Norm.columns_replay
#print axioms Nntl.Norm.whole_run_exists
#print axioms Nntl.Norm.demo_success
#print axioms Nntl.Norm.columns_reported
#print axioms Nntl.Norm.whole_reported
#print axioms Nntl.Utils.Bw.listed_iff
#print axioms Nntl.Utils.Bw.unvisited_default
#print axioms Nntl.Utils.Bw.switch_empties
#print axioms Nntl.Utils.Bw.release_same
#print axioms Nntl.Utils.Bw.release_drops_names
#print axioms Nntl.Utils.Bw.question_after_reset
#print axioms Nntl.Utils.Cm.counters_exact
#print axioms Nntl.Utils.Cm.totals
#print axioms Nntl.Utils.Cm.means_demo
#print axioms Nntl.Utils.Cm.fresh_update_undefined
#print axioms Nntl.Utils.Cm.reduce_into_summand
#print axioms Nntl.Utils.Ls.settings_map_partial
#print axioms Nntl.Utils.Ls.settings_map_default_partial
#print axioms Nntl.Utils.Ls.for_each_visits
#print axioms Nntl.Utils.Ls.set_default_undefined
#print axioms Nntl.Utils.Mx.options_independent
#print axioms Nntl.Utils.Mx.duplicate_index
#print axioms Nntl.Utils.Dh.all_full_batches_partial
#print axioms Nntl.Utils.Dh.last_full_batch_skipped
#print axioms Nntl.Utils.Dh.announced_count_overstates
#print axioms Nntl.Utils.Dh.init_at_reshuffle
#print axioms Nntl.Grad.addendum_value
#print axioms Nntl.Grad.addendum_gradient
#print axioms Nntl.Grad.addendum_gradient_is_derivative
#print axioms Nntl.TrainData.init4inference_failure_reports_initialised
#print axioms Nntl.TrainData.init4inference_failure_partial
#print axioms Nntl.TrainData.batch_biases_ones
#print axioms Nntl.TrainData.epoch_batch_possible
#print axioms Nntl.TrainData.walk_subset_possible
#print axioms Nntl.TrainData.epoch_run_exists
#print axioms Nntl.TrainData.walk_run_exists
#print axioms Nntl.Train.learns_in_training_mode
#print axioms Nntl.Train.train_cleans_up
#print axioms Nntl.Train.negative_answer_keeps_arguments_partial
#print axioms Nntl.Train.positive_answer_arguments
#print axioms Nntl.Train.negative_answer_changes_argument
#print axioms Nntl.Train.session_sizes_partial
#print axioms Nntl.Train.second_session_uses_old_batch_size
#print axioms Nntl.Train.failed_session_init
#print axioms Nntl.Istor.use_runs_iff
#print axioms Nntl.Istor.announce_reserves_peak
#print axioms Nntl.Istor.idxsOfMax_memory
#print axioms Nntl.Istor.mrwSum_memory
#print axioms Nntl.Istor.softmax_memory
#print axioms Nntl.Istor.checkNormalize_memory
#print axioms Nntl.Istor.applyIlr_memory
#print axioms Nntl.Istor.deCov_memory
#print axioms Nntl.Istor.gw_memory_partial
#print axioms Nntl.Istor.gw_option_switch_aborts
#print axioms Nntl.Layers.gradient_matrices_big_enough
#print axioms Nntl.Grad.rmsprop_average
#print axioms Nntl.Grad.rmsprop_step_bounded
#print axioms Nntl.Grad.modprop_average
#print axioms Nntl.Grad.graves_radicand_nonneg
#print axioms Nntl.Grad.rprop_step
#print axioms Nntl.Grad.adamax_infinity_norm
#print axioms Nntl.Grad.adamax_bookkeeping
#print axioms Nntl.Grad.rnadam_averages
#print axioms Nntl.Dropout.dropout_keeps_expectation
#print axioms Nntl.Dropout.alpha_dropout_keeps_moments
#print axioms Nntl.Norm.whole_within_tolerance
#print axioms Nntl.Norm.columns_within_tolerance
#print axioms Nntl.Norm.transf_within_tolerance_partial
#print axioms Nntl.Norm.transf_misses_target
#print axioms Nntl.Norm.already_normalised_untouched_partial
#print axioms Nntl.Norm.already_normalised_fails
#print axioms Nntl.Utils.Cm.shares_in_range
#print axioms Nntl.Utils.Cm.f1_harmonic
#print axioms Nntl.Utils.Cm.mcc_in_range_partial
#print axioms Nntl.Utils.Cm.mcc_overflows
#print axioms Nntl.Utils.Cm.scores_of_samples
#print axioms Nntl.Utils.Cm.fBeta_weighted_mean
#print axioms Nntl.Utils.Cm.mcc_extreme
#print axioms Nntl.Utils.Cm.mcc_overflows_many
#print axioms Nntl.Utils.Cm.differences_in_range
#print axioms Nntl.Utils.Cm.differences_of_samples
#print axioms Nntl.Utils.Cm.scores_computed
#print axioms Nntl.Utils.Dh.holder_batches
#print axioms Nntl.Utils.Dh.reported_indices_full_batch
#print axioms Nntl.Act.activation_derivative
#print axioms Nntl.Act.activation_smooth
#print axioms Nntl.Act.activation_smooth_zero
#print axioms Nntl.Act.relu_kink
#print axioms Nntl.Act.activation_runs
#print axioms Nntl.Act.f_eq
#print axioms Nntl.Act.zero_stable
#print axioms Nntl.Act.activation_strictMono
#print axioms Nntl.Act.activation_mono
#print axioms Nntl.Act.activation_range
#print axioms Nntl.Act.df_assertions
#print axioms Nntl.Act.loss_value
#print axioms Nntl.Act.loss_xentropy_value
#print axioms Nntl.Act.loss_xentropy_bounded
#print axioms Nntl.Act.loss_xentropy_soft_answers
#print axioms Nntl.Act.loss_softmax_value
#print axioms Nntl.Act.loss_nonneg
#print axioms Nntl.Act.custom_not_as_described
#print axioms Nntl.Act.output_gradient
#print axioms Nntl.Act.output_gradient_of_loss
#print axioms Nntl.Act.output_regular
#print axioms Nntl.Act.xentropy_gradient_eps
#print axioms Nntl.Act.clamp_harmless
#print axioms Nntl.Act.restrict_bounds
#print axioms Nntl.Act.restrict_one_sided
#print axioms Nntl.Act.wRes_jump
#print axioms Nntl.Act.softmax_gradient
#print axioms Nntl.Act.softmax_gradient_needs_distribution
#print axioms Nntl.Act.outGrad_runs
#print axioms Nntl.Gemm.preactivation
#print axioms Nntl.Gemm.preactivation_bias
#print axioms Nntl.Gemm.handed_down
#print axioms Nntl.Gemm.weight_gradient
#print axioms Nntl.Gemm.weight_gradient_needs_bias
#print axioms Nntl.Gemm.product
#print axioms Nntl.Gemm.product_transposed
#print axioms Nntl.Gemm.product_scaled
#print axioms Nntl.Gemm.covariance
#print axioms Nntl.Cols.mean_result
#print axioms Nntl.Cols.deMean_result
#print axioms Nntl.Cols.deMean_centred
#print axioms Nntl.Cols.deMeanNZ_result
#print axioms Nntl.Cols.deMeanNZ_centred
#print axioms Nntl.Cols.sub_result
#print axioms Nntl.Cols.mulDiag_result
#print axioms Nntl.Cols.deMean_runs
#print axioms Nntl.Cols.deMeanNZ_runs
#print axioms Nntl.Cols.mulDiag_runs
#print axioms Nntl.Cols.triangle_call
#print axioms Nntl.Cols.triangle_sum
#print axioms Nntl.DeCov.loss_value
#print axioms Nntl.DeCov.loss_runs
#print axioms Nntl.DeCov.penalty_zero_iff
#print axioms Nntl.DeCov.gradient_in_place
#print axioms Nntl.DeCov.gradient_value
#print axioms Nntl.DeCov.gradient_runs
#print axioms Nntl.DeCov.gradient_is_derivative
#print axioms Nntl.DeCov.addendum_loss
#print axioms Nntl.DeCov.addendum_gradient
#print axioms Nntl.DeCov.addendum_gradient_stored
#print axioms Nntl.DeCov.layout_ignored
#print axioms Nntl.Backprop.tree_gradient
#print axioms Nntl.Backprop.training_step_gradient
#print axioms Nntl.Backprop.single_weights
#print axioms Nntl.Backprop.reported_loss
#print axioms Nntl.Backprop.reported_loss_softmax
#print axioms Nntl.Backprop.network_gradient
#print axioms Nntl.Report.reported_value
#print axioms Nntl.Report.reported_mean_partial
#print axioms Nntl.Report.reported_times_batches
#print axioms Nntl.Report.reported_not_mean
#print axioms Nntl.Report.last_sample_not_counted
#print axioms Nntl.Report.diverged_iff
#print axioms Nntl.Report.walk_exists
#print axioms Nntl.Report.demo_report
#print axioms Nntl.Report.report_fresh
#print axioms Nntl.Report.report_after_any_history
#print axioms Nntl.Report.added_eq
#print axioms Nntl.Report.direct_call_stale
#print axioms Nntl.Report.late_addendum_ignored
#print axioms Nntl.BgWork.exec_at_most_once
#print axioms Nntl.BgWork.exec_all_done
#print axioms Nntl.BgWork.exec_returns
#print axioms Nntl.BgWork.exec_function
#print axioms Nntl.BgWork.demo_exec
#print axioms Nntl.BgWork.running_listed
#print axioms Nntl.BgWork.deleted_not_running
#print axioms Nntl.BgWork.delete_clears
#print axioms Nntl.BgWork.not_listed_not_called
#print axioms Nntl.BgWork.pass_follows
#print axioms Nntl.BgWork.pass_priorities
#print axioms Nntl.BgWork.no_pass_while_changing
#print axioms Nntl.BgWork.no_task_begun_under_flag
#print axioms Nntl.BgWork.flag_exact
#print axioms Nntl.BgWork.flag_down_when_idle
#print axioms Nntl.BgWork.no_deadlock
#print axioms Nntl.BgWork.no_lost_wakeup
#print axioms Nntl.BgWork.destructor_terminates
#print axioms Nntl.BgWork.flag_releases_lock
#print axioms Nntl.BgWork.exec_wait_bounded_partial
#print axioms Nntl.BgWork.exec_delayed_by_task
#print axioms Nntl.BgWork.no_race_partial
#print axioms Nntl.BgWork.flag_race
#print axioms Nntl.WInit.run_true_partial
#print axioms Nntl.WInit.run_true_good
#print axioms Nntl.WInit.run_false_first
#print axioms Nntl.WInit.run_small
#print axioms Nntl.WInit.dead_layer_accepted
#print axioms Nntl.WInit.run_flags
#print axioms Nntl.WInit.run_untouched
#print axioms Nntl.WInit.run_rescales
#print axioms Nntl.WInit.lsuv_converges
#print axioms Nntl.WInit.lsuv_reaches
#print axioms Nntl.WInit.run_total
#print axioms Nntl.WInit.slope_centres_partial
#print axioms Nntl.WInit.steep_never_centred
#print axioms Nntl.WInit.chain_slope
#print axioms Nntl.WInit.heZhang_weights
#print axioms Nntl.WInit.draws_distinct
#print axioms Nntl.WInit.orthoInit_orthogonal
#print axioms Nntl.WInit.orthoInit_false
#print axioms Nntl.WInit.martens_sparse_partial
#print axioms Nntl.WInit.martens_draws_distinct
#print axioms Nntl.WInit.martens_too_small
#print axioms Nntl.WInit.martens_total
#print axioms Nntl.Backprop.extended_network_gradient
#print axioms Nntl.Backprop.ex_smooth
#print axioms Nntl.Backprop.exLayers_ok
#print axioms Nntl.Backprop.inference_without_dropout
#print axioms Nntl.Backprop.reported_objective_partial
#print axioms Nntl.Backprop.reported_penalty_gradient_false
#print axioms Nntl.Backprop.l2_value
#print axioms Nntl.Backprop.l1_value
#print axioms Nntl.Backprop.deCov_value
#print axioms Nntl.Backprop.l2_append
#print axioms Nntl.Backprop.l1_append
#print axioms Nntl.Backprop.deCov_append
#print axioms Nntl.Pass.lex_lawful
