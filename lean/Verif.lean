import Verif.Threads.PartitionModel
import Verif.Threads.PartitionLemmas
import Verif.Threads.PartitionProps
import Verif.Threads.PoolModel
import Verif.Threads.PoolLemmas
import Verif.Threads.PoolInv
import Verif.Threads.PoolLog
import Verif.Threads.PoolProgress
import Verif.Threads.PoolProps
import Verif.Matrix.Model
import Verif.Matrix.Lemmas
import Verif.Matrix.Spec
import Verif.Matrix.BiasInv
import Verif.Matrix.TriangLemmas
import Verif.Matrix.Props
import Verif.Matrix.OwnModel
import Verif.Matrix.OwnLemmas
import Verif.Matrix.OwnProps
import Verif.Kernel.Writes
import Verif.Kernel.MoveModel
import Verif.Kernel.MoveLemmas
import Verif.Kernel.MoveProps
import Verif.TrainData.Model
import Verif.TrainData.Spec
import Verif.TrainData.Lemmas
import Verif.TrainData.Inv
import Verif.TrainData.Subset
import Verif.TrainData.Props
import Verif.TrainData.InitProps
import Verif.BinFile.Model
import Verif.BinFile.Spec
import Verif.BinFile.Lemmas
import Verif.BinFile.Props
import Verif.DataBuf.Model
import Verif.DataBuf.Spec
import Verif.DataBuf.Lemmas
import Verif.DataBuf.Props
import Verif.Train.Model
import Verif.Train.Spec
import Verif.Train.Lemmas
import Verif.Train.Props
import Verif.Train.OptsProps
import Verif.Kernel.Rmw
import Verif.Kernel.RowModel
import Verif.Kernel.RowSpec
import Verif.Kernel.RowLemmas
import Verif.Kernel.RowProps
import Verif.Eval.Model
import Verif.Eval.Spec
import Verif.Eval.Lemmas
import Verif.Eval.Props
import Verif.Istor.Model
import Verif.Istor.Spec
import Verif.Istor.Props
import Verif.Layers.Model
import Verif.Layers.Spec
import Verif.Layers.Lemmas
import Verif.Layers.MemLemmas
import Verif.Layers.Props
import Verif.Layers.BatchProps
import Verif.Pass.Model
import Verif.Pass.Spec
import Verif.Pass.Lemmas
import Verif.Pass.Horiz
import Verif.Pass.OptModel
import Verif.Pass.Opt
import Verif.Pass.NetModel
import Verif.Pass.Net
import Verif.Pass.FcModel
import Verif.Pass.Fc
import Verif.Pass.LoopModel
import Verif.Pass.LoopLemmas
import Verif.Pass.Tree
import Verif.Pass.Props
import Verif.Pass.Demo
import Verif.Kernel.Each
import Verif.KOrd.Model
import Verif.KOrd.Spec
import Verif.KOrd.Lemmas
import Verif.KOrd.Agg
import Verif.KOrd.Props
import Verif.Kernel.Elem
import Verif.Num.SoftmaxModel
import Verif.Num.Softmax
import Verif.Kernel.Reduce
import Verif.Grad.Kernels
import Verif.Grad.Model
import Verif.Grad.Spec
import Verif.Grad.Lemmas
import Verif.Grad.Func
import Verif.Grad.SessionLemmas
import Verif.Grad.StepLemmas
import Verif.Grad.MomentumProps
import Verif.Grad.Exists
import Verif.Grad.BlockedProps
import Verif.Grad.OptLemmas
import Verif.Grad.AdamProps
import Verif.Grad.GainProps
import Verif.Grad.NormProps
import Verif.Grad.AddendumProps
import Verif.Grad.OptProps
import Verif.Dropout.Model
import Verif.Dropout.Spec
import Verif.Dropout.Props
import Verif.Norm.Model
import Verif.Norm.Spec
import Verif.Norm.Lemmas
import Verif.Norm.LoopLemmas
import Verif.Norm.Props
import Verif.Utils.BwList
import Verif.Utils.BwListProps
import Verif.Utils.Confusion
import Verif.Utils.ConfusionProps
import Verif.Utils.Scores
import Verif.Utils.Settings
import Verif.Utils.SettingsProps
import Verif.Utils.Mixins
import Verif.Utils.MixinsProps
import Verif.Utils.Holder
import Verif.Utils.HolderProps
import Verif.Act.Model
import Verif.Act.Spec
import Verif.Act.Lemmas
import Verif.Act.DerivLemmas
import Verif.Act.Props
import Verif.Act.LossModel
import Verif.Act.LossSpec
import Verif.Act.LossProps
import Verif.Gemm.Model
import Verif.Gemm.Spec
import Verif.Gemm.Lemmas
import Verif.Gemm.Props
import Verif.Cols.Model
import Verif.Cols.Spec
import Verif.Cols.Lemmas
import Verif.Cols.Props
import Verif.DeCov.Model
import Verif.DeCov.Spec
import Verif.DeCov.Lemmas
import Verif.DeCov.Props
import Verif.Backprop.Spec
import Verif.Backprop.Lemmas
import Verif.Backprop.Tree
import Verif.Backprop.Net
import Verif.Backprop.Props
import Verif.Report.Model
import Verif.Report.Spec
import Verif.Report.Lemmas
import Verif.Report.Props
import Verif.BgWork.Props
import Verif.WInit.Slope
import Verif.WInit.StaticProps
import Verif.Backprop.LexProps
import Verif.Pass.DetProps
import Verif.Backprop.ReproProps
import Verif.Calls.Props
import Verif.GradCheck.Props
import Verif.GradCheck.Limit
import Verif.GradCheck.Demo
import Verif.Backprop.OptProps
import Verif.Rng.MatrixProps
import Verif.Sync.PrioProps
import Verif.MatFile.Props
import Verif.MatFile.ConvProps
import Verif.MatFile.ExProps
import Verif.JsonFile.Props
import Verif.Matrix.RetryProps
import Verif.TDStor.Props
import Verif.EW.Props
import Verif.EW.RowProps
import Verif.EW.NormProps
import Verif.DataBuf.AnyProps
import Verif.AsRng.SeedProps
import Verif.Session.DataProps
import Verif.Gw.Props
import Verif.NetFile.Wit
import Verif.Ttd.Wit
import Verif.SeqFile.Props
import Verif.SeqFile.Reject
import Verif.Dumper.Props
import Verif.NetState.Wit
import Verif.MtxTest.Wit
import Verif.Life.Wit
import Verif.Fwd.Wit
import Verif.LossAdd.Wit
import Verif.Text.Wit
import Verif.Tools.Wit
import Verif.Eval.ThrProps
import Verif.Sgd.Spec
import Verif.Sgd.Lemmas
import Verif.Sgd.Net
import Verif.Sgd.Props
import Verif.Sgd.Cases
import Verif.Sgd.WholeModel
import Verif.Sgd.WholeLemmas
import Verif.Sgd.WholeProps
import Verif.Sgd.WholeCases
import Verif.Sgd.AnySpec
import Verif.Sgd.AnyProps
import Verif.Sgd.AnyRules
import Verif.Sgd.AnyOpts
import Verif.Sgd.AnyCases
import Verif.Sgd.WholeAny
import Verif.Sgd.WholeAnyCases
import Verif.Sgd.AllSpec
import Verif.Sgd.AllOpts
import Verif.Sgd.AllProps
import Verif.Sgd.AllCases
import Verif.Sgd.MatSpec
import Verif.Sgd.MatLemmas
import Verif.Sgd.MatOpts
import Verif.Sgd.MatProps
import Verif.Sgd.MatCases
import Verif.Sgd.ExtSpec
import Verif.Sgd.ExtLemmas
import Verif.Sgd.ExtNet
import Verif.Sgd.ExtProps
import Verif.Sgd.ExtMatSpec
import Verif.Sgd.ExtMat
import Verif.Sgd.ExtMatProps
import Verif.Sgd.ExtCases
import Verif.Sgd.ExtWholeModel
import Verif.Sgd.ExtWholeLemmas
import Verif.Sgd.ExtWhole
import Verif.Sgd.ExtWholeCases
import Verif.Sgd.FreeLemmas
import Verif.Sgd.FreeProps
import Verif.Sgd.FreeCases
import Verif.GradCheck.Keep
import Verif.Matrix.ElemProps
import Verif.Grad.LocalProps
import Verif.Sgd.OrderProps
import Verif.Sgd.OrderCases
import Verif.Sgd.PenProps
import Verif.Sgd.PenCases
import Verif.Sgd.PenWhole
import Verif.Sgd.SubProps
import Verif.Sgd.SubCases
import Verif.Sgd.ShareProps
import Verif.Sgd.ShareCases
import Verif.Sgd.SymProps
import Verif.Sgd.SymNets
import Verif.Sgd.SymCases
import Verif.Sgd.PermProps
import Verif.Sgd.PermCases
import Verif.Sgd.PermWholeCases
import Verif.Sgd.UnseenProps
import Verif.Sgd.UnseenMore
import Verif.Sgd.UnseenCases
import Verif.Sgd.UnseenWholeCases
import Verif.Sgd.ScaleProps
import Verif.Sgd.ScaleCases
import Verif.Sgd.ScaleWholeCases
import Verif.Sgd.ScaleMore
import Verif.Sgd.ScaleMoreCases
import Verif.Axioms
