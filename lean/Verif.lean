import Verif.Base
import Verif.ListLemmas
import Verif.Sampling.Model
import Verif.Sampling.Spec
import Verif.Sampling.Lemmas
import Verif.Sampling.SplitLemmas
import Verif.Sampling.SplitProps
import Verif.Sampling.LabelLemmas
import Verif.Sampling.LabelProps
import Verif.Sampling.SampleProps
import Verif.Assoc
import Verif.PyVal
import Verif.Sampling.PlanModel
import Verif.Sampling.PlanProps
import Verif.Sampling.StorageModel
import Verif.Sampling.StorageProps
import Verif.Utils.JsonModel
import Verif.Utils.JsonSpec
import Verif.Utils.JsonLemmas
import Verif.Utils.JsonProps
import Verif.Utils.Model
import Verif.Utils.Props
import Verif.ExceptLemmas
import Verif.Hpo.Model
import Verif.Hpo.Spec
import Verif.Hpo.Lemmas
import Verif.Hpo.SpaceProps
import Verif.Hpo.MergeProps
import Verif.Hpo.TunerProps
import Verif.Evaluation.Model
import Verif.Evaluation.Spec
import Verif.Evaluation.Props
import Verif.DataLoader.LockModel
import Verif.DataLoader.LockProps
import Verif.DataLoader.StoreModel
import Verif.DataLoader.StoreLemmas
import Verif.DataLoader.StoreProps
import Verif.DataLoader.IndexModel
import Verif.DataLoader.IndexSpec
import Verif.DataLoader.IndexProps
import Verif.DataLoader.UriModel
import Verif.DataLoader.UriProps
import Verif.Preprocess.Types
import Verif.Preprocess.Model
import Verif.Preprocess.Spec
import Verif.Preprocess.ResolveProps
import Verif.Preprocess.PurgeProps
import Verif.Preprocess.Demo
import Verif.Preprocess.StoreProps
import Verif.Preprocess.CacheSem
import Verif.Preprocess.CacheInv
import Verif.Preprocess.CacheProps
import Verif.Preprocess.DemoHash
import Verif.Preprocess.CacheMulti
import Verif.Preprocess.NameProps
import Verif.Preprocess.TokenModel
import Verif.Preprocess.TokenProps
import Verif.Labels.Model
import Verif.Labels.Spec
import Verif.Labels.Props
import Verif.Graph.OpsModel
import Verif.Graph.OpsSpec
import Verif.Graph.Runs
import Verif.Graph.OpsProps
import Verif.Graph.NormProps
import Verif.Graph.KnnModel
import Verif.Graph.KnnSpec
import Verif.Graph.KnnLemmas
import Verif.Graph.KnnProps
import Verif.Graph.KnnReal
import Verif.Graph.CacheModel
import Verif.Graph.CacheProps
import Verif.Graph.BuildModel
import Verif.Graph.BuildProps
import Verif.Graph.MaskModel
import Verif.Graph.MaskSpec
import Verif.Graph.MaskProps
import Verif.Graph.SpecModel
import Verif.Graph.SpecProps
import Verif.Graph.ArrayFp
import Verif.Graph.FeatModel
import Verif.Graph.FeatProps
import Verif.Graph.ViewsCacheProps
import Verif.Graph.WalkModel
import Verif.Graph.WalkSpec
import Verif.Graph.WalkProps
import Verif.Inductive.SelectProps
import Verif.Inductive.LoopProps
import Verif.Inductive.CoProps
import Verif.Inductive.TriProps
import Verif.Inductive.PredictProps
import Verif.Inductive.PredictMore
import Verif.Inductive.SetredProps
import Verif.Transductive.PropConv
import Verif.Transductive.FitProps
import Verif.Transductive.MincutProps
import Verif.Supervised.KnnProps
import Verif.Supervised.TorchKnnModel
import Verif.Supervised.TorchKnnProps
import Verif.Supervised.NetModel
import Verif.Supervised.NetProps
import Verif.Inductive.AdaptModel
import Verif.Inductive.AdaptProps
import Verif.Supervised.RegistryProps
import Verif.Supervised.RegistryMore
import Verif.Views.Props
import Verif.IntRepr
import Verif.Bench.LimitsProps
import Verif.Bench.SweepProps
import Verif.Bench.SliceProps
import Verif.Augment.Model
import Verif.Augment.Props
import Verif.Augment.ImageProps
import Verif.Augment.RegistryModel
import Verif.Augment.RegistryProps
import Verif.Transductive.LaplaceModel
import Verif.Transductive.LaplaceSpec
import Verif.Transductive.MMatrix
import Verif.Transductive.LaplaceProps
import Verif.Transductive.LazyModel
import Verif.Transductive.LazySpec
import Verif.Transductive.LazyProps
import Verif.Transductive.CgModel
import Verif.Transductive.CgSpec
import Verif.Transductive.CgProps
import Verif.Transductive.PoissonModel
import Verif.Transductive.PoissonSpec
import Verif.Transductive.PoissonProps
import Verif.Transductive.PoissonWitness
import Verif.Transductive.DynamicModel
import Verif.Transductive.DynamicSpec
import Verif.Transductive.DynamicProps
import Verif.Transductive.PLaplaceModel
import Verif.Transductive.PLaplaceSpec
import Verif.Transductive.PLaplaceProps
import Verif.Transductive.PLaplaceRun
import Verif.Transductive.MboModel
import Verif.Transductive.MboSpec
import Verif.Transductive.MboProps
import Verif.Transductive.MboRun
import Verif.Deep.BatchModel
import Verif.Deep.BatchSpec
import Verif.Deep.BatchProps
import Verif.Deep.SharpModel
import Verif.Deep.SharpSpec
import Verif.Deep.SharpProps
import Verif.Deep.GraphModel
import Verif.Deep.GraphSpec
import Verif.Deep.GraphProps
import Verif.Deep.FlexModel
import Verif.Deep.FlexSpec
import Verif.Deep.FlexProps
import Verif.Deep.EmaModel
import Verif.Deep.EmaSpec
import Verif.Deep.EmaProps
import Verif.Deep.AlignProps
import Verif.Deep.EnsModel
import Verif.Deep.EnsSpec
import Verif.Deep.EnsProps
import Verif.Deep.AdshModel
import Verif.Deep.AdshSpec
import Verif.Deep.AdshProps
import Verif.Inductive.S4vmModel
import Verif.Inductive.S4vmSpec
import Verif.Inductive.S4vmProps
import Verif.Deep.LossModel
import Verif.Deep.LossSpec
import Verif.Deep.LossProps
import Verif.Deep.BankModel
import Verif.Deep.BankSpec
import Verif.Deep.BankProps
import Verif.Deep.CoProps
import Verif.Deep.DasoModel
import Verif.Deep.DasoSpec
import Verif.Deep.DasoProps
import Verif.Inductive.DemModel
import Verif.Inductive.DemSpec
import Verif.Inductive.DemProps
import Verif.Preprocess.VisionModel
import Verif.Preprocess.VisionSpec
import Verif.Preprocess.VisionProps
import Verif.Preprocess.PlanModel
import Verif.Preprocess.PlanSpec
import Verif.Preprocess.PlanProps
import Verif.Preprocess.EdgeModel
import Verif.Preprocess.EdgeSpec
import Verif.Preprocess.EdgeProps
import Verif.Preprocess.OneHotModel
import Verif.Preprocess.OneHotSpec
import Verif.Preprocess.OneHotProps
import Verif.Graph.AnchorModel
import Verif.Graph.AnchorSpec
import Verif.Graph.AnchorProps
import Verif.Preprocess.PcaModel
import Verif.Preprocess.PcaSpec
import Verif.Preprocess.PcaProps
import Verif.Bench.ProtoModel
import Verif.Bench.ProtoSpec
import Verif.Bench.ProtoProps
import Verif.Bench.ColumnsProps
import Verif.Bench.SearchProps
import Verif.Bench.SchemaModel
import Verif.Bench.SchemaSpec
import Verif.Bench.SchemaProps
import Verif.Bench.SchemaSpace
import Verif.Bench.SchemaClosed
import Verif.Bench.SchemaTrials
import Verif.Bench.SchemaErrors
import Verif.Bench.ContractModel
import Verif.Bench.ContractSpec
import Verif.Bench.ContractProps
import Verif.Bench.ContractFit
import Verif.Bench.RunModel
import Verif.Bench.RunSpec
import Verif.Bench.RunProps
import Verif.Bench.RunExit
import Verif.Bench.ReportModel
import Verif.Bench.ReportSpec
import Verif.Bench.ReportProps
import Verif.Bench.PlaceModel
import Verif.Bench.PlaceProps
import Verif.Bench.AugModel
import Verif.Bench.AugProps
import Verif.Gnn.PrepModel
import Verif.Gnn.PrepSpec
import Verif.Gnn.PrepProps
import Verif.Gnn.PropagateProps
import Verif.Gnn.TrainModel
import Verif.Gnn.TrainSpec
import Verif.Gnn.TrainProps
import Verif.Gnn.HopModel
import Verif.Gnn.HopSpec
import Verif.Gnn.HopProps
import Verif.Gnn.CoarsenModel
import Verif.Gnn.CoarsenProps
import Verif.Gnn.GrafnModel
import Verif.Gnn.GrafnProps
import Verif.Transductive.TsvmModel
import Verif.Transductive.TsvmProps
import Verif.Transductive.FixedModel
import Verif.Transductive.FixedProps
import Verif.Graph.Node2vecModel
import Verif.Graph.Node2vecProps
import Verif.Preprocess.WaveModel
import Verif.Preprocess.WaveProps
import Verif.Preprocess.ScaleModel
import Verif.Preprocess.ScaleProps
import Verif.Preprocess.EncodeModel
import Verif.Preprocess.EncodeProps
import Verif.Deep.SimclrModel
import Verif.Deep.SimclrProps
import Verif.Deep.TrinetModel
import Verif.Deep.TrinetProps
import Verif.Deep.AdvModel
import Verif.Deep.AdvProps
import Verif.Deep.FitModel
import Verif.Deep.FitProps
import Verif.Deep.BundleModel
import Verif.Deep.BundleProps
import Verif.Bench.InjectModel
import Verif.Bench.InjectProps
import Verif.Bench.ConvertProps
import Verif.Deep.ConsModel
import Verif.Deep.ConsProps
import Verif.Deep.NoisyModel
import Verif.Deep.NoisyProps
import Verif.Deep.MplModel
import Verif.Deep.MplProps
import Verif.Deep.DctProps
import Verif.Deep.MixProps
import Verif.Inductive.DispatchModel
import Verif.Inductive.DispatchProps
import Verif.DataLoader.ProviderModel
import Verif.DataLoader.ProviderNameProps
import Verif.DataLoader.ProviderLoadProps
import Verif.DataLoader.PygModel
import Verif.DataLoader.PygProps
import Verif.DataLoader.ServiceModel
import Verif.DataLoader.ServiceProps
import Verif.Deep.AdshFitModel
import Verif.Deep.AdshFitProps
import Verif.Deep.DefixModel
import Verif.Deep.DefixProps
import Verif.Bench.NodeModel
import Verif.Bench.NodeProps
import Verif.Deep.AdaptFitProps
import Verif.Deep.CoFitModel
import Verif.Deep.CoFitProps
import Verif.Deep.DasoFitModel
import Verif.Deep.DasoFitProps
import Verif.Deep.BundleAccept
import Verif.Gnn.GrafnFitModel
import Verif.Gnn.GrafnFitProps
import Verif.Gnn.GrandFitModel
import Verif.Gnn.GrandFitProps
import Verif.Sampling.ValidateModel
import Verif.Sampling.ValidateProps
import Verif.Bench.ResolveModel
import Verif.Bench.ResolveProps
import Verif.Gnn.GatModel
import Verif.Gnn.GatProps
import Verif.Gnn.NetModel
import Verif.Gnn.NetProps
import Verif.Gnn.HgcnModel
import Verif.Gnn.HgcnProps
import Verif.Gnn.NgcnModel
import Verif.Gnn.NgcnProps
import Verif.Gnn.GraphHopModel
import Verif.Gnn.GraphHopProps
import Verif.Preprocess.DgiModel
import Verif.Preprocess.DgiProps
import Verif.Sampling.ReportModel
import Verif.Sampling.ReportProps
import Verif.Transductive.TorchModel
import Verif.Transductive.TorchProps
import Verif.Inductive.GroupModel
import Verif.Inductive.GroupProps
import Verif.Utils.CachePathModel
import Verif.Utils.CachePathProps
import Verif.Inductive.DemTorchModel
import Verif.Inductive.DemTorchProps
import Verif.Graph.NeighborModel
import Verif.Graph.NeighborProps
import Verif.Supervised.TextModel
import Verif.Supervised.TextProps
import Verif.Graph.WeightProps
import Verif.Deep.TrinetTrainModel
import Verif.Deep.TrinetTrainProps
import Verif.Supervised.AudioModel
import Verif.Supervised.AudioProps
import Verif.Inductive.ViewModel
import Verif.Inductive.ViewProps
import Verif.Augment.OnceProps
import Verif.DataLoader.PurgeProps
import Verif.Utils.LoggingModel
import Verif.Utils.LoggingProps
import Verif.Supervised.SageModel
import Verif.Supervised.SageProps
import Verif.Graph.AnchorMissing
import Verif.Sampling.HistoryModel
import Verif.Sampling.HistoryProps
import Verif.DataLoader.ManifestModel
import Verif.DataLoader.ManifestProps
import Verif.Utils.BuiltinModel
import Verif.Utils.BuiltinProps
