import Verif.Props.Codec
import Verif.Props.BinaryIO
import Verif.Props.Sort
import Verif.Props.NumericParser
import Verif.Props.ReadLine
import Verif.Props.SvmIO
import Verif.Props.CsvIO
import Verif.Props.Vector
import Verif.Props.Handle
import Verif.Props.DataPoint
import Verif.Props.Sparse
import Verif.Props.Heap
import Verif.Props.BlockQueue
import Verif.Props.DataIter
import Verif.Props.Loss
import Verif.Props.Online
import Verif.Props.Perceptron
import Verif.Props.Pa
import Verif.Props.Fobos
import Verif.Props.Select
import Verif.Props.Variance
import Verif.Props.Ball
import Verif.Props.Eval
import Verif.Props.PreProcess
import Verif.Props.Tools
import Verif.Props.StrUtil
import Verif.Props.Arrays
import Verif.Props.Params
import Verif.Props.LoadLoop
import Verif.Props.Accepted
import Verif.Props.Save
import Verif.Props.SelectSafe
import Verif.Props.Json
import Verif.Props.LoadText
import Verif.Props.AllClasses
import Verif.Props.Cmdline
import Verif.Props.Cli
import Verif.Props.Train
import Verif.Props.Regret
import Verif.Props.CApi
import Verif.Props.GetSet
import Verif.Props.SaveAgain
import Verif.Props.Predict
import Verif.Props.AdaRegret
import Verif.Props.DualRegret
import Verif.Props.Alma
import Verif.Props.FloatValue
import Verif.Props.DataFile
import Verif.Props.DataTools
import Verif.Props.ToolMains
import Verif.Props.Whole
import Verif.Props.Leading
import Verif.Props.Expr
import Verif.Props.Cv
import Verif.Props.Named
import Verif.Props.DataSet
import Verif.Props.PySol
import Verif.Props.PyCv
import Verif.Props.ParamOrder
import Verif.Props.SolTrain
import Verif.Props.PyMain
import Verif.Props.PyArrays
import Verif.Props.Observe
import Verif.Props.Experiment
import Verif.Props.Vw
import Verif.Props.Active
import Verif.Props.Sop
import Verif.Props.Confidence
import Verif.Props.Show
import Verif.Props.TrainTest
import Verif.Props.Composite
import Verif.Props.Erda
import Verif.Props.First
import Verif.Props.Sparsity
import Verif.Props.Remember
import Verif.Props.Fig
import Verif.Props.Handles
