import Verif.Model.Num
import Verif.Lemmas.Num
import Verif.Props.Quant
import Verif.Props.ReducedLUT
import Verif.Props.FullyConnected
import Verif.Props.Dtype
import Verif.Model.Sequential
import Verif.Props.LutLayer
import Verif.Props.Dispatch
import Verif.Props.Relu
import Verif.Props.Onnx
import Verif.Props.Batches
import Verif.Props.Sequential
import Verif.Props.LSTM
import Verif.Props.Distribution
import Verif.Props.Node
import Verif.Props.Qubo
import Verif.Props.Annealer
import Verif.Props.ParamEqualizer
import Verif.Props.Collisions
import Verif.Props.Keras
import Verif.Props.FusedRelu
import Verif.Props.Pipeline
import Verif.Lemmas.Accuracy
import Verif.Props.Accuracy
import Verif.Props.Loads
import Verif.Props.Fpga
import Verif.Props.FpgaLoss
import Verif.Props.Onnx2Json
import Verif.Props.Config
import Verif.Props.Floating
import Verif.Props.LSTMExport
import Verif.Props.Elementwise
import Verif.Props.Keras2Json
import Verif.Model.Build
import Verif.Lemmas.Build
import Verif.Props.Build
import Verif.Props.Layout
import Verif.Props.LstmFloat
import Verif.Model.Tflite2Json
import Verif.Props.Tflite2Json
import Verif.Props.TfliteRun
import Verif.Props.Float
import Verif.Props.FloatCal
import Verif.Props.FloatDense
import Verif.Props.Optimizers
import Verif.Props.LayerEqualizer
import Verif.Model.LayerCollisions
import Verif.Props.LayerCollisions
import Verif.Model.QuboExtra
import Verif.Lemmas.QuboExtra
import Verif.Props.QuboExtra
import Verif.Model.QuboBuild
import Verif.Lemmas.QuboBuild
import Verif.Props.QuboBuild
import Verif.Lemmas.LstmAccuracy
import Verif.Lemmas.LstmFloat64
import Verif.Props.LstmAccuracy
import Verif.Props.OnnxModel
import Verif.Props.OnnxAccuracy
import Verif.Props.OnnxFloat
import Verif.Props.OnnxSoftmax
import Verif.Model.Metrics
import Verif.Props.Metrics
import Verif.Props.ScipyOptimizer
import Verif.Props.KLOptimizer
import Verif.Model.ConfigFile
import Verif.Props.ConfigFile
import Verif.Props.RecurrentAccuracy
import Verif.Props.CalibrationData
import Verif.Model.FloatEngine
import Verif.Props.FloatEngine
import Verif.Props.FloatExport
import Verif.Props.Locality
import Verif.Model.Exporter
import Verif.Props.Exporter
import Verif.Props.FloatLayers
import Verif.Props.LstmFloatEngine
import Verif.Props.LstmFloatExport
import Verif.Props.TfliteFloat
import Verif.Props.Classes
import Verif.Props.Losses
import Verif.Props.SoftmaxHead
import Verif.Props.FloatActs
import Verif.Props.FloatRows
import Verif.Props.FloatEnds
import Verif.Props.PartialBins
import Verif.Props.NodeLayout
import Verif.Props.FpgaRank
import Verif.Props.LstmSaturation
import Verif.Lemmas.RealFunctions
import Verif.Props.RealOnnx
import Verif.Lemmas.RealFiles
import Verif.Props.RealTflite
import Verif.Props.RealFile
import Verif.Props.RealKeras
import Verif.Props.RealLstm
import Verif.Props.RealEnds
import Verif.Props.RealRange
import Verif.Props.RealClasses
import Verif.Props.RealSoftmax
import Verif.Props.RealSeqSoftmax
import Verif.Props.RealTfliteEnds
import Verif.Props.InferCall
