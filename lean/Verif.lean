import Verif.Lemmas.Alias
import Verif.Lemmas.Archive
import Verif.Lemmas.ArgOrder
import Verif.Lemmas.ArgReduce
import Verif.Lemmas.Arith
import Verif.Lemmas.Array
import Verif.Lemmas.Bitwise
import Verif.Lemmas.Broadcast
import Verif.Lemmas.Builders
import Verif.Lemmas.BusDay
import Verif.Lemmas.Calendar
import Verif.Lemmas.Cast
import Verif.Lemmas.Char
import Verif.Lemmas.CharCase
import Verif.Lemmas.Compare
import Verif.Lemmas.Complex
import Verif.Lemmas.Concat
import Verif.Lemmas.Copy
import Verif.Lemmas.Copyto
import Verif.Lemmas.Covariance
import Verif.Lemmas.Create
import Verif.Lemmas.Cumulative
import Verif.Lemmas.DType
import Verif.Lemmas.DTypeInfo
import Verif.Lemmas.DateText
import Verif.Lemmas.Datetime
import Verif.Lemmas.Distribution
import Verif.Lemmas.DoubleRound
import Verif.Lemmas.Einsum
import Verif.Lemmas.Elementwise
import Verif.Lemmas.Emath
import Verif.Lemmas.Fft
import Verif.Lemmas.Float
import Verif.Lemmas.FloatOps
import Verif.Lemmas.FloatPower
import Verif.Lemmas.Functional
import Verif.Lemmas.Gcd
import Verif.Lemmas.Grid
import Verif.Lemmas.Gufunc
import Verif.Lemmas.InBounds
import Verif.Lemmas.Index
import Verif.Lemmas.IntOps
import Verif.Lemmas.Io
import Verif.Lemmas.Layout
import Verif.Lemmas.Linalg
import Verif.Lemmas.Masked
import Verif.Lemmas.MixedCompare
import Verif.Lemmas.Moments
import Verif.Lemmas.NanReduce
import Verif.Lemmas.Nd
import Verif.Lemmas.NestedList
import Verif.Lemmas.Norm
import Verif.Lemmas.Partition
import Verif.Lemmas.Poly
import Verif.Lemmas.Print
import Verif.Lemmas.Random
import Verif.Lemmas.Rearrange
import Verif.Lemmas.Reduce
import Verif.Lemmas.RoundClip
import Verif.Lemmas.Sampling
import Verif.Lemmas.Search
import Verif.Lemmas.SearchElem
import Verif.Lemmas.Select
import Verif.Lemmas.SetOps
import Verif.Lemmas.SharedRng
import Verif.Lemmas.Shuffle
import Verif.Lemmas.Signal
import Verif.Lemmas.Sort
import Verif.Lemmas.Special
import Verif.Lemmas.Stats
import Verif.Lemmas.Strings
import Verif.Lemmas.Svd
import Verif.Lemmas.Text
import Verif.Lemmas.TextFile
import Verif.Lemmas.TimeArith
import Verif.Lemmas.TotalValues
import Verif.Lemmas.Totals
import Verif.Lemmas.Ufunc
import Verif.Lemmas.View
import Verif.Lemmas.Window
import Verif.Model.Alias
import Verif.Model.Alloc
import Verif.Model.Angle
import Verif.Model.Archive
import Verif.Model.ArgOrder
import Verif.Model.ArgReduce
import Verif.Model.Args
import Verif.Model.Arith
import Verif.Model.Array
import Verif.Model.Axis
import Verif.Model.Bitwise
import Verif.Model.Block
import Verif.Model.Builders
import Verif.Model.BusDay
import Verif.Model.Calendar
import Verif.Model.Cast
import Verif.Model.Char
import Verif.Model.CharCase
import Verif.Model.Choose
import Verif.Model.Compare
import Verif.Model.Complex
import Verif.Model.CompressArg
import Verif.Model.Concat
import Verif.Model.Copy
import Verif.Model.Copyto
import Verif.Model.Covariance
import Verif.Model.Create
import Verif.Model.Cumulative
import Verif.Model.DType
import Verif.Model.DTypeInfo
import Verif.Model.DiffElem
import Verif.Model.Distribution
import Verif.Model.DotElem
import Verif.Model.Duration
import Verif.Model.EinPath
import Verif.Model.Einsum
import Verif.Model.Elementwise
import Verif.Model.Emath
import Verif.Model.Fft
import Verif.Model.Float
import Verif.Model.FloatOps
import Verif.Model.FloatPower
import Verif.Model.Functional
import Verif.Model.Gcd
import Verif.Model.Gufunc
import Verif.Model.HistArg
import Verif.Model.InsertArg
import Verif.Model.IntOps
import Verif.Model.Interface
import Verif.Model.Io
import Verif.Model.Layout
import Verif.Model.Linalg
import Verif.Model.LogSpace
import Verif.Model.Masked
import Verif.Model.Matmul
import Verif.Model.Methods
import Verif.Model.MixedCompare
import Verif.Model.Moments
import Verif.Model.NanReduce
import Verif.Model.NestedList
import Verif.Model.Norm
import Verif.Model.NumberFn
import Verif.Model.Numerical
import Verif.Model.Poly
import Verif.Model.Print
import Verif.Model.Put
import Verif.Model.Random
import Verif.Model.Rearrange
import Verif.Model.Reduce
import Verif.Model.ResultType
import Verif.Model.RoundClip
import Verif.Model.Sampling
import Verif.Model.Search
import Verif.Model.SearchElem
import Verif.Model.Select
import Verif.Model.Sequence
import Verif.Model.SetOps
import Verif.Model.ShapeArg
import Verif.Model.Share
import Verif.Model.SharedRng
import Verif.Model.Signal
import Verif.Model.SizeFn
import Verif.Model.Sort
import Verif.Model.Special
import Verif.Model.Stack
import Verif.Model.Stats
import Verif.Model.Strings
import Verif.Model.Text
import Verif.Model.TextFile
import Verif.Model.TimeArith
import Verif.Model.Totals
import Verif.Model.Truth
import Verif.Model.Ufunc
import Verif.Model.View
import Verif.Model.Window
import Verif.Props.Alias
import Verif.Props.Alloc
import Verif.Props.Angle
import Verif.Props.Archive
import Verif.Props.ArgOrder
import Verif.Props.ArgReduce
import Verif.Props.Args
import Verif.Props.Arith
import Verif.Props.Assign
import Verif.Props.Axis
import Verif.Props.Bitwise
import Verif.Props.Block
import Verif.Props.Broadcast
import Verif.Props.Builders
import Verif.Props.BusDay
import Verif.Props.Cast
import Verif.Props.Char
import Verif.Props.CharCase
import Verif.Props.Choose
import Verif.Props.Compare
import Verif.Props.Complex
import Verif.Props.CompressArg
import Verif.Props.Concat
import Verif.Props.Convolve
import Verif.Props.Copyto
import Verif.Props.Covariance
import Verif.Props.Create
import Verif.Props.Cumulative
import Verif.Props.DType
import Verif.Props.DTypeInfo
import Verif.Props.DateText
import Verif.Props.Datetime
import Verif.Props.DiffElem
import Verif.Props.Distribution
import Verif.Props.DotElem
import Verif.Props.Duration
import Verif.Props.Edit
import Verif.Props.EinPath
import Verif.Props.Einsum
import Verif.Props.EinsumMulti
import Verif.Props.EinsumPair
import Verif.Props.Elementwise
import Verif.Props.Emath
import Verif.Props.Fft
import Verif.Props.FloatOps
import Verif.Props.FloatPower
import Verif.Props.Functional
import Verif.Props.Gcd
import Verif.Props.Gufunc
import Verif.Props.HistArg
import Verif.Props.Histogram
import Verif.Props.InBounds
import Verif.Props.Index
import Verif.Props.InsertArg
import Verif.Props.IntOps
import Verif.Props.Interface
import Verif.Props.Io
import Verif.Props.Kron
import Verif.Props.Layout
import Verif.Props.Linalg
import Verif.Props.Masked
import Verif.Props.Matmul
import Verif.Props.Methods
import Verif.Props.MixedCompare
import Verif.Props.Moments
import Verif.Props.NanReduce
import Verif.Props.NestedList
import Verif.Props.Norm
import Verif.Props.NumberFn
import Verif.Props.Numerical
import Verif.Props.Partition
import Verif.Props.Percentile
import Verif.Props.Poly
import Verif.Props.Polyfit
import Verif.Props.Power
import Verif.Props.Print
import Verif.Props.Products
import Verif.Props.Put
import Verif.Props.Random
import Verif.Props.Rearrange
import Verif.Props.Reduce
import Verif.Props.Reshape
import Verif.Props.ResultType
import Verif.Props.RoundClip
import Verif.Props.Sampling
import Verif.Props.Search
import Verif.Props.SearchElem
import Verif.Props.Select
import Verif.Props.Sequence
import Verif.Props.SetOps
import Verif.Props.ShapeArg
import Verif.Props.Share
import Verif.Props.SharedRng
import Verif.Props.Signal
import Verif.Props.SizeFn
import Verif.Props.Solve
import Verif.Props.Sort
import Verif.Props.Special
import Verif.Props.Stack
import Verif.Props.Strings
import Verif.Props.TextFile
import Verif.Props.TimeArith
import Verif.Props.Totals
import Verif.Props.Triangle
import Verif.Props.Truth
import Verif.Props.Ufunc
import Verif.Props.ViewPrograms
import Verif.Props.Views
import Verif.Props.Window
import Verif.Spec.Alias
import Verif.Spec.Alloc
import Verif.Spec.ArgOrder
import Verif.Spec.Args
import Verif.Spec.Arith
import Verif.Spec.Assign
import Verif.Spec.Axis
import Verif.Spec.Binary
import Verif.Spec.Bitwise
import Verif.Spec.Block
import Verif.Spec.Builders
import Verif.Spec.BusDay
import Verif.Spec.Calendar
import Verif.Spec.Cast
import Verif.Spec.CharCase
import Verif.Spec.Compare
import Verif.Spec.Complex
import Verif.Spec.Copyto
import Verif.Spec.Covariance
import Verif.Spec.Create
import Verif.Spec.DType
import Verif.Spec.DTypeInfo
import Verif.Spec.Distribution
import Verif.Spec.Duration
import Verif.Spec.EinPath
import Verif.Spec.Einsum
import Verif.Spec.Emath
import Verif.Spec.Fft
import Verif.Spec.FloatOps
import Verif.Spec.Functional
import Verif.Spec.Gufunc
import Verif.Spec.HistArg
import Verif.Spec.Ieee
import Verif.Spec.InsertArg
import Verif.Spec.Int
import Verif.Spec.Interface
import Verif.Spec.LeastSquares
import Verif.Spec.Linalg
import Verif.Spec.Masked
import Verif.Spec.Matmul
import Verif.Spec.Methods
import Verif.Spec.Moments
import Verif.Spec.NanReduce
import Verif.Spec.Nd
import Verif.Spec.NestedList
import Verif.Spec.Numerical
import Verif.Spec.Poly
import Verif.Spec.Print
import Verif.Spec.Put
import Verif.Spec.Random
import Verif.Spec.Rearrange
import Verif.Spec.Reduce
import Verif.Spec.ResultType
import Verif.Spec.RoundClip
import Verif.Spec.Sampling
import Verif.Spec.Search
import Verif.Spec.Select
import Verif.Spec.Sequence
import Verif.Spec.ShapeArg
import Verif.Spec.Share
import Verif.Spec.SharedRng
import Verif.Spec.Signal
import Verif.Spec.Sort
import Verif.Spec.Stack
import Verif.Spec.Stats
import Verif.Spec.Text
import Verif.Spec.TextTable
import Verif.Spec.Time
import Verif.Spec.Totals
import Verif.Spec.Truth
import Verif.Spec.Ufunc
import Verif.Spec.View
import Verif.Spec.Window
