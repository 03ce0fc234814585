import Verif.Algorithm.AdjustedLemmas
import Verif.Algorithm.AdjustedSpec
import Verif.Algorithm.Alg
import Verif.Algorithm.AlgLemmas
import Verif.Algorithm.Calm
import Verif.Algorithm.CalmInstances
import Verif.Algorithm.ClimbPath
import Verif.Algorithm.CountProps
import Verif.Algorithm.Counts
import Verif.Algorithm.Evolutionary
import Verif.Algorithm.EvolutionaryProps
import Verif.Algorithm.GenerationLemmas
import Verif.Algorithm.GenerationReach
import Verif.Algorithm.GenerationSpec
import Verif.Algorithm.HillClimbingProps
import Verif.Algorithm.Human
import Verif.Algorithm.HumanProps
import Verif.Algorithm.ItEa
import Verif.Algorithm.ItEaProps
import Verif.Algorithm.LambdaLambda
import Verif.Algorithm.LambdaLambdaProps
import Verif.Algorithm.LocalSearch
import Verif.Algorithm.LocalSearchProps
import Verif.Algorithm.Mimic
import Verif.Algorithm.MimicProps
import Verif.Algorithm.ParallelProps
import Verif.Algorithm.PathLemmas
import Verif.Algorithm.PathReach
import Verif.Algorithm.PathSpec
import Verif.Algorithm.PatienceLemmas
import Verif.Algorithm.Population
import Verif.Algorithm.ProbabilityVector
import Verif.Algorithm.ProbabilityVectorLemmas
import Verif.Algorithm.ProbabilityVectorProps
import Verif.Algorithm.RamUmda
import Verif.Algorithm.RamUmdaProps
import Verif.Algorithm.RateProps
import Verif.Algorithm.Steady
import Verif.Algorithm.SteadyInstances
import Verif.Algorithm.TieProps
import Verif.Algorithm.Total
import Verif.App.AlgorithmFactory
import Verif.App.AlgorithmFactoryMore
import Verif.App.AlgorithmFactoryMoreProps
import Verif.App.AlgorithmFactoryProps
import Verif.App.AlgorithmFactorySpec
import Verif.App.Application
import Verif.App.ApplicationProps
import Verif.App.Factory
import Verif.App.FactoryAdjustedProps
import Verif.App.FactoryFileProps
import Verif.App.FactoryFileSpec
import Verif.App.FactoryGenerationProps
import Verif.App.FactoryGenerationSpec
import Verif.App.FactoryLemmas
import Verif.App.FactoryPathProps
import Verif.App.FactoryPathSpec
import Verif.App.FactoryProps
import Verif.App.FactorySpec
import Verif.App.FactorySteady
import Verif.App.Ffgen
import Verif.App.FfgenLemmas
import Verif.App.FfgenProps
import Verif.App.FfgenSpec
import Verif.App.GenMain
import Verif.App.GenMainLemmas
import Verif.App.GenMainProps
import Verif.App.GenMainSpec
import Verif.App.HncoRun
import Verif.App.HncoRunLemmas
import Verif.App.HncoRunProps
import Verif.App.Information
import Verif.App.InformationProps
import Verif.App.Main
import Verif.App.MainCommandProps
import Verif.App.MainInfoProps
import Verif.App.MainLemmas
import Verif.App.MainMapCommandProps
import Verif.App.MainMapLemmas
import Verif.App.MainMapProps
import Verif.App.MainMapSpec
import Verif.App.MainProps
import Verif.App.MainSettings
import Verif.App.MainSpec
import Verif.App.MakeAdapter
import Verif.App.MakeAdapterProps
import Verif.App.MoMain
import Verif.App.MoMainLemmas
import Verif.App.MoMainProps
import Verif.App.MoMainSpec
import Verif.App.Model
import Verif.App.Modifier
import Verif.App.ModifierProps
import Verif.App.OptionRead
import Verif.App.OptionReadLemmas
import Verif.App.OptionReadSpec
import Verif.App.OptionTables
import Verif.App.Options
import Verif.App.OptionsCheck
import Verif.App.OptionsEnd
import Verif.App.OptionsLemmas
import Verif.App.OptionsPrintProps
import Verif.App.OptionsProps
import Verif.App.OptionsRun
import Verif.App.OptionsSpec
import Verif.App.ParserProps
import Verif.App.SplitProps
import Verif.App.TspFactory
import Verif.App.TspFactoryProps
import Verif.Base
import Verif.BitVector.Lemmas
import Verif.BitVector.Model
import Verif.BitVector.Props
import Verif.Examples.AppModel
import Verif.Examples.AppProps
import Verif.Examples.Lemmas
import Verif.Examples.Model
import Verif.Examples.Props
import Verif.FParser.Code
import Verif.FParser.CodeProps
import Verif.FParser.Complete
import Verif.FParser.CompleteExpr
import Verif.FParser.CompleteProgram
import Verif.FParser.Deduce
import Verif.FParser.DeduceLemmas
import Verif.FParser.DeduceProps
import Verif.FParser.EmitExpr
import Verif.FParser.EmitLemmas
import Verif.FParser.FnLemmas
import Verif.FParser.Grammar
import Verif.FParser.RuleLemmas
import Verif.FParser.RulePowi
import Verif.FParser.RuleProps
import Verif.FParser.Rules
import Verif.FParser.RunLemmas
import Verif.FParser.Sound
import Verif.FParser.Syntax
import Verif.FParser.SyntaxProps
import Verif.FParser.Value
import Verif.FParser.Variables
import Verif.Function.Base
import Verif.Function.Cancellation
import Verif.Function.CnfProps
import Verif.Function.Collection
import Verif.Function.ComplementProps
import Verif.Function.Controller
import Verif.Function.ControllerProps
import Verif.Function.FactorizationProps
import Verif.Function.IncrementalProps
import Verif.Function.Ising
import Verif.Function.IsingProps
import Verif.Function.LongPathProps
import Verif.Function.MaxSat
import Verif.Function.MaxSatProps
import Verif.Function.Maximality
import Verif.Function.MaximalityProps
import Verif.Function.MaximumProps
import Verif.Function.NkLandscape
import Verif.Function.NkProps
import Verif.Function.Peaks
import Verif.Function.PeaksProps
import Verif.Function.Qubo
import Verif.Function.QuboProps
import Verif.Function.Spec
import Verif.Function.Sudoku
import Verif.Function.SudokuFileProps
import Verif.Function.SudokuProps
import Verif.Function.Sums
import Verif.Function.Theory
import Verif.Function.TheoryProps
import Verif.Function.TspLoad
import Verif.Function.TspLoadProps
import Verif.Function.TspLoadSpec
import Verif.Function.TspProps
import Verif.Function.Walsh
import Verif.Function.WalshProps
import Verif.Iterator.Lemmas
import Verif.Iterator.Model
import Verif.Iterator.NeighborhoodProps
import Verif.Iterator.Props
import Verif.Iterator.SphereLemmas
import Verif.Map.CompositionProps
import Verif.Map.Lemmas
import Verif.Map.Model
import Verif.Map.Props
import Verif.Map.Sampling
import Verif.Map.Spec
import Verif.Matrix.Bridge
import Verif.Matrix.Echelon
import Verif.Matrix.Elim
import Verif.Matrix.Elim2
import Verif.Matrix.Lemmas
import Verif.Matrix.Model
import Verif.Matrix.PredicateProps
import Verif.Matrix.Props
import Verif.Matrix.Spec
import Verif.Multiobjective.Application
import Verif.Multiobjective.ApplicationProps
import Verif.Multiobjective.CrowdingLemmas
import Verif.Multiobjective.Model
import Verif.Multiobjective.Nsga2
import Verif.Multiobjective.Nsga2Props
import Verif.Multiobjective.ParetoProps
import Verif.Multiobjective.Parsed
import Verif.Multiobjective.ParsedProps
import Verif.Neighborhood.Model
import Verif.Neighborhood.Props
import Verif.Population.AlgLemmas
import Verif.Population.Generation
import Verif.Population.Lemmas
import Verif.Population.Model
import Verif.Population.Props
import Verif.Population.RandomSelection
import Verif.Population.RandomSelectionProps
import Verif.Population.TournamentProps
import Verif.Prob.Adaptive
import Verif.Prob.AdaptiveLemmas
import Verif.Prob.AdaptiveProps
import Verif.Prob.AdaptiveSymmetryProps
import Verif.Prob.AnnealingLemmas
import Verif.Prob.Beta
import Verif.Prob.BetaLemmas
import Verif.Prob.BetaProps
import Verif.Prob.BetaSpec
import Verif.Prob.BlindLemmas
import Verif.Prob.BlindSpec
import Verif.Prob.Chain
import Verif.Prob.CommutingLemmas
import Verif.Prob.Dist
import Verif.Prob.EvolutionLemmas
import Verif.Prob.EvolutionProps
import Verif.Prob.GibbsLemmas
import Verif.Prob.InstanceLemmas
import Verif.Prob.InstanceProps
import Verif.Prob.InstanceSpec
import Verif.Prob.InstanceValue
import Verif.Prob.Instances
import Verif.Prob.Laws
import Verif.Prob.Lemmas
import Verif.Prob.MapProps
import Verif.Prob.MoreLaws
import Verif.Prob.Noise
import Verif.Prob.NoiseLemmas
import Verif.Prob.NoiseProps
import Verif.Prob.NoiseSpec
import Verif.Prob.OrderEvolutionProps
import Verif.Prob.OrderLemmas
import Verif.Prob.OrderPopLemmas
import Verif.Prob.OrderProps
import Verif.Prob.OrderSelectionLemmas
import Verif.Prob.OrderSpec
import Verif.Prob.OrderTimeProps
import Verif.Prob.OrderTimeSpec
import Verif.Prob.Pairing
import Verif.Prob.PopulationLemmas
import Verif.Prob.PopulationLoops
import Verif.Prob.PopulationSpec
import Verif.Prob.PopulationSymmetryLemmas
import Verif.Prob.PopulationSymmetryProps
import Verif.Prob.Populations
import Verif.Prob.Props
import Verif.Prob.RefineEvolution
import Verif.Prob.RefineLemmas
import Verif.Prob.RefineMutation
import Verif.Prob.RefineProps
import Verif.Prob.RefineSearch
import Verif.Prob.RefineSpec
import Verif.Prob.RejectionLemmas
import Verif.Prob.RestartProps
import Verif.Prob.Restarts
import Verif.Prob.Samplers
import Verif.Prob.Search
import Verif.Prob.SearchLemmas
import Verif.Prob.SearchSpec
import Verif.Prob.SequenceLemmas
import Verif.Prob.SequenceProps
import Verif.Prob.SequenceSpec
import Verif.Prob.Sequences
import Verif.Prob.ShuffleLemmas
import Verif.Prob.Spec
import Verif.Prob.StationaryLemmas
import Verif.Prob.SymmetryLemmas
import Verif.Prob.SymmetryProps
import Verif.Prob.SymmetrySpec
import Verif.Prob.SyncProps
import Verif.Prob.TimeLemmas
import Verif.Prob.TimeProps
import Verif.Prob.TournamentCount
import Verif.Prob.TournamentLemmas
import Verif.Prob.TournamentProps
import Verif.Prob.TournamentSpec
import Verif.Prob.Tournaments
import Verif.Prob.UnbiasedLemmas
import Verif.Prob.UnbiasedProps
import Verif.Prob.UnbiasedSpec
import Verif.Prob.VectorLemmas
import Verif.Prob.VectorProps
import Verif.Prob.VectorSymmetryLemmas
import Verif.Prob.VectorSymmetryProps
import Verif.Prob.WalkLemmas
import Verif.Prob.WalkProps
import Verif.Prob.WalkSpec
import Verif.Prob.Walks
import Verif.Random
import Verif.Representation.Adapter
import Verif.Representation.AdapterProps
import Verif.Representation.CategoricalProps
import Verif.Representation.IntegerProps
import Verif.Representation.Model
import Verif.Representation.PermutationProps
import Verif.Representation.ValueProps
import Verif.Serialization.Model
import Verif.Serialization.Props
import Verif.Sort
import Verif.Tests.EaModel
import Verif.Tests.EaProps
import Verif.Tests.Ends
import Verif.Tests.IncrementalModel
import Verif.Tests.IncrementalProps
import Verif.Tests.IteratorModel
import Verif.Tests.IteratorProps
import Verif.Tests.Live
import Verif.Tests.LiveLemmas
import Verif.Tests.LiveProps
import Verif.Tests.Model
import Verif.Tests.MomentModel
import Verif.Tests.MomentProps
import Verif.Tests.PopulationModel
import Verif.Tests.PopulationProps
import Verif.Tests.Props
import Verif.Tests.RepresentationModel
import Verif.Tests.RepresentationProps
import Verif.Tests.SearchModel
import Verif.Tests.SearchProps
import Verif.Tests.SerializeModel
import Verif.Tests.SerializeProps
import Verif.Text
import Verif.TextLemmas
import Verif.Walsh.BmProps
import Verif.Walsh.GibbsProps
import Verif.Walsh.HeaProps
import Verif.Walsh.HerdingProps
import Verif.Walsh.Lemmas
import Verif.Walsh.Matrix
import Verif.Walsh.MatrixProps
import Verif.Walsh.Model
import Verif.Walsh.MomentProps
