import Verif.Props.Construct
import Verif.Props.Elementwise
import Verif.Props.Scalar
import Verif.Props.ScalarMore
import Verif.Props.Prune
import Verif.Props.HashMap
import Verif.Props.Nd
import Verif.Props.NdShape
import Verif.Props.Broadcast
import Verif.Props.Convert
import Verif.Props.Transpose
import Verif.Props.Unfold
import Verif.Props.Spmv
import Verif.Props.Sums
import Verif.Props.MinMax
import Verif.Props.Prod
import Verif.Props.Var
import Verif.Props.Logic
import Verif.Props.Spmm
import Verif.Props.Tensordot
import Verif.Props.Cumulative
import Verif.Props.Diff
import Verif.Props.Create
import Verif.Props.PyIndex
import Verif.Props.Matmul
import Verif.Props.PyReduce
import Verif.Props.PyReduceOps
import Verif.Props.CountNonzero
import Verif.Props.PyReduceNd
import Verif.Props.PtrElementwise
import Verif.Props.PtrSpmv
import Verif.Props.PtrSimd
import Verif.Props.PyClass
import Verif.Props.PtrConvert
import Verif.Props.PtrTranspose
import Verif.Props.PtrPrune
import Verif.Props.PtrLines
import Verif.Props.PtrNd
import Verif.Props.PtrCumulative
import Verif.Props.PtrDiff
import Verif.Props.PtrAccum
import Verif.Props.PtrScatter
import Verif.Props.PtrSpmm
import Verif.Props.PtrNdAcc
import Verif.Props.PtrNdMm
import Verif.Props.PtrBroadcast
import Verif.Props.Rounding
import Verif.Props.RoundingMul
import Verif.Props.PyLinalg
import Verif.Props.PyProg
import Verif.Props.PyMeaning
import Verif.Props.PySession
import Verif.Props.PyStat
import Verif.Props.PyScan
import Verif.Props.PyLinProg
import Verif.Props.PyBits
import Verif.Props.PyRead
import Verif.Props.PyAny
import Verif.Props.PyOper
import Verif.Props.PyNamespace
import Verif.Props.PyMisc
import Verif.Props.PyDot
import Verif.Props.PyScanAny
import Verif.Props.PyProgExt
import Verif.Props.F64
import Verif.Props.Exact
import Verif.Props.F64Div
import Verif.Props.F64Quot
import Verif.Props.F64Red
import Verif.Props.PyCount
import Verif.Props.F64Var
import Verif.Props.F64Round
import Verif.Props.F64Special
import Verif.Props.F64Nd
import Verif.Props.F64NdRed
import Verif.Props.PyDotNd
import Verif.Props.F64NdDot
import Verif.Props.ExactNd
import Verif.Props.F64NdAxes
import Verif.Props.F64NdFn
import Verif.Props.PyVar
import Verif.Props.PyGil
import Verif.Props.PyLayout
import Verif.Props.PyRebind
import Verif.Props.F64NdVar
import Verif.Props.PyGilRebind
import Verif.Props.PyShapeAssign
import Verif.Props.PyNumpyDoc
