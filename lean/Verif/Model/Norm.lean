import Verif.Model.Floats
import Verif.Model.View

/-!
# Norm and average of vectors of floating-point numbers

`Normalize`, `Mean` and `SubAvg` as in `Model/View`, for scalars with NaN and infinities: `assert(val != 0)` is false only for zeros, and a division by zero is
not an error.  `std::sqrt` and the conversion of `int` to `double` are parameters.
-/

namespace Linalg
open Cpp Floats

namespace Flt
variable {F : Type} [Floats F]

/-- `Normalize(vect)` (src/vectorview.cpp:39-42). -/
def normalize (sqrt : F → F) (v : List F) : Res (List F) := do
  let nrm ← Vec.l2Norm sqrt v
  divVec v nrm

/-- `Mean(vect)` (include/vectorview.hpp:747-751). -/
def mean (ofInt : Int → F) (v : List F) : F := Vec.sum v / ofInt v.length

/-- `SubAvg(vect)` (src/vectorview.cpp:44-47) with `operator-=` (include/vectorview.hpp:637-646). -/
def subAvg (ofInt : Int → F) (v : List F) : List F :=
  let mu := mean ofInt v
  v.map (fun a => a - mu)

end Flt
end Linalg
