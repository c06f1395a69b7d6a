import Verif.Cpp.Basic
import Verif.Cpp.Lemmas
import Verif.Model.Dense
import Verif.Model.Sparse
import Verif.Model.Coo
import Verif.Model.Lil
import Verif.Spec.Coo
import Verif.Proof.Coo
import Verif.Props.Coo
import Verif.Proof.Lil
import Verif.Props.Lil
import Verif.Props.Vector
import Verif.Props.Block
import Verif.Spec.Csr
import Verif.Proof.Csr
import Verif.Proof.Sums
import Verif.Proof.Triples
import Verif.Props.SparseVector
import Verif.Props.SparseTranspose
import Verif.Props.SparseUpdate
import Verif.Proof.Filter
import Verif.Proof.Sort
import Verif.Spec.Sort
import Verif.Props.SparseSort
import Verif.Proof.Fill
import Verif.Proof.SubMatrix
import Verif.Proof.SpGemm
import Verif.Props.SparseMult
import Verif.Spec.Vec
import Verif.Proof.Vec
import Verif.Props.DenseBasic
import Verif.Props.SparseHistory
import Verif.Props.SparseSub
import Verif.Proof.Dense
import Verif.Proof.SparseDense
import Verif.Props.SparseDense
import Verif.Props.SparseMore
import Verif.Proof.InPlace
import Verif.Proof.Transpose
import Verif.Props.Solvers
import Verif.Props.Examples
import Verif.Props.Io
import Verif.Props.Util
import Verif.Props.DenseMore
import Verif.Props.SparseAccess
import Verif.Props.Eigen
import Verif.Props.Partition
import Verif.Props.ParOffsets
import Verif.Props.ParMatrix
import Verif.Props.ParAdd
import Verif.Props.ParSplit
import Verif.Props.ParMult
import Verif.Props.ParTranspose
import Verif.Props.LapackDense
import Verif.Props.Minres
import Verif.Props.SolverApi
import Verif.Props.ParVec
import Verif.Props.ParProd
import Verif.Props.ParUpdate
import Verif.Props.L1Norms
import Verif.Props.Own
import Verif.Props.SparseSolve
import Verif.Props.PowerIter
import Verif.Props.Laplacian
import Verif.Props.QrEig
import Verif.Props.Handles
import Verif.Props.ParSolver
import Verif.Props.Precond
import Verif.Props.Plain
import Verif.Props.SolverObj
import Verif.Props.Order
import Verif.Props.Round
import Verif.Props.RoundLu
import Verif.Props.Alias
import Verif.Props.Operator
import Verif.Props.Width
import Verif.Props.Mixed
import Verif.Props.Print
import Verif.Props.PrintArgs
import Verif.Props.PrintBlock
import Verif.Check.RepoTests
import Verif.Props.Self
import Verif.Props.Digits
import Verif.Props.Lobpcg
import Verif.Props.Random
import Verif.Props.RingTest
import Verif.Props.Access
import Verif.Props.ParTest
import Verif.Props.SparseMain
import Verif.Props.ParPkg
import Verif.Props.Forms
import Verif.Props.EigenSparse
import Verif.Props.ParSettings
import Verif.Props.CgOptimal
import Verif.Props.LinalgTest
import Verif.Props.SolversTest
import Verif.Props.CgRate
import Verif.Props.MinresRate
import Verif.Props.ExampleMains
import Verif.Props.CgIter
import Verif.Props.MinresIter
import Verif.Props.ParTold
import Verif.Props.SolverViews
import Verif.Props.Floats
import Verif.Props.FloatsExact
import Verif.Spec.RoundFlo
import Verif.Spec.Ieee
import Verif.Props.PcgRound
import Verif.Model.Norm
import Verif.Props.Double
import Verif.Model.FltDiv
import Verif.Spec.FltDiv
import Verif.Props.FltDiv
import Verif.Props.FltLu
import Verif.Spec.Whole
import Verif.Props.Whole
import Verif.Props.WholeLu
import Verif.Model.IoRange
import Verif.Props.IoRange
import Verif.Model.Dispatch
import Verif.Props.Dispatch
import Verif.Spec.DblSqrt
import Verif.Props.DblNorm
import Verif.Model.ParThreads
import Verif.Proof.ParThreads
import Verif.Props.ParThreads
import Verif.Model.Release
import Verif.Proof.Release
import Verif.Props.Release
import Verif.Model.ReleaseFlt
import Verif.Props.ReleaseFlt
import Verif.Model.ReleaseDense
import Verif.Props.ReleaseDense
import Verif.Model.ReleaseSparse
import Verif.Props.ReleaseSparse
import Verif.Model.ReleaseLil
import Verif.Props.ReleaseLil
import Verif.Model.ReleaseBlock
import Verif.Props.ReleaseBlock
import Verif.Model.ReleaseSparse2
import Verif.Props.ReleaseSparse2
import Verif.Model.ReleaseDense2
import Verif.Props.ReleaseDense2
import Verif.Model.ReleaseMisc
import Verif.Props.ReleaseMisc
import Verif.Model.ReleaseDense3
import Verif.Props.ReleaseDense3
import Verif.Model.ReleaseElim
import Verif.Props.ReleaseElim
import Verif.Model.ReleaseView2
import Verif.Props.ReleaseView2
import Verif.Model.ReleaseScale
import Verif.Props.ReleaseScale
import Verif.Model.ReleaseBlockOp
import Verif.Props.ReleaseBlockOp
import Verif.Model.ReleaseCoo
import Verif.Props.ReleaseCoo
import Verif.Model.ReleaseLil2
import Verif.Props.ReleaseLil2
import Verif.Model.ReleaseArgs
import Verif.Props.ReleaseArgs
