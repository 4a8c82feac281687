import Verif.Props.TypeStr
import Verif.Props.DType
import Verif.Props.Header
import Verif.Props.Shape
import Verif.Props.WriteHeader
import Verif.Props.Codec
import Verif.Props.Read
import Verif.Props.Writer
import Verif.Props.Builder
import Verif.Props.Crash
import Verif.Props.Faults
import Verif.Props.Npz
import Verif.Props.Sparse
import Verif.Props.Stream
import Verif.Props.IoError
import Verif.Props.Errors
import Verif.Props.Numpy
import Verif.Props.Buffer
import Verif.Props.Panics
import Verif.Props.Descr
import Verif.Conformance.Header
import Verif.Conformance.Serialize
import Verif.Conformance.Write
import Verif.Conformance.Data
import Verif.Conformance.Files
import Verif.Conformance.Sparse
import Verif.Props.Index
import Verif.Props.Memory
import Verif.Props.User
import Verif.Props.UserFaults
import Verif.Props.Compose
import Verif.Props.Apart
import Verif.Props.Distinct
import Verif.Props.Faulty
import Verif.Props.Resave
import Verif.Props.Agree
import Verif.Props.Framing
import Verif.Props.Place
import Verif.Props.Transpose
import Verif.Props.SparseCopy
import Verif.Props.Kinds
import Verif.Props.Count
import Verif.Props.Swap
import Verif.Props.OneType
import Verif.Props.Damage
import Verif.Props.Archive
import Verif.Props.Bigger
import Verif.Props.Indices
import Verif.Props.Derive
import Verif.Props.DeriveTypes
import Verif.Props.InPlace
import Verif.Props.Failed
import Verif.Props.Kept
import Verif.Props.Visit
import Verif.Props.Pipe
import Verif.Props.Message
import Verif.Props.Recover
import Verif.Props.Grow
import Verif.Props.Depth
import Verif.Props.Opens
import Verif.Props.Slice
import Verif.Props.Shared
import Verif.Props.Append
import Verif.Props.Pickle
import Verif.Props.View
import Verif.Props.Iter
import Verif.Props.BufRead
import Verif.Props.Live
import Verif.Proofs.LiveFail
import Verif.Props.LiveFail
import Verif.Spec.Scipy
import Verif.Proofs.Scipy
import Verif.Props.Scipy
import Verif.Spec.NumpyNpz
import Verif.Props.NumpyNpz
import Verif.Model.Ndarray
import Verif.Spec.Ndarray
import Verif.Proofs.Ndarray
import Verif.Props.Ndarray
import Verif.Conformance.Ndarray
