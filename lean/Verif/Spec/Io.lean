import Verif.Model.Io
import Verif.Spec.Coo

/-!
# What reading and writing should preserve
-/

namespace Linalg
namespace Io

/-- Only white space. -/
def AllSpace (t : Text) : Prop := ∀ c ∈ t, isSpace c = true

/-- A conversion stops here: the end of the text or white space. -/
def Ends (t : Text) : Prop := t = [] ∨ ∃ c r, t = c :: r ∧ isSpace c = true

/-- The printed form of `v` has a character, does not start with white space, and converts back to `v`. -/
structure Fmt.RoundTrips {α : Type} (F : Fmt α) (v : α) : Prop where
  first : ∃ c r, F.put v = c :: r ∧ isSpace c = false
  back : ∀ r, Ends r → F.get (F.put v ++ r) = (some v, r)

/-- The representation of `v` has the right number of bytes and decodes to `v`. -/
structure Rep.RoundTrips {α : Type} (R : Rep α) (v : α) : Prop where
  length_eq : (R.enc v).length = R.size
  back : R.dec (R.enc v) = v

/-- `v` fits in an `int`. -/
def IsInt32 (v : Int) : Prop := -2 ^ 31 ≤ v ∧ v < 2 ^ 31

/-- The stored entries of a matrix, as (row, column, value), in storage order. -/
def entries {α : Type} (A : Csr α) : List (Int × Int × α) :=
  (Cpp.iota A.rows.toNat).flatMap (fun i => (A.row i).map (fun e => (i, e.1, e.2)))

end Io
end Linalg
