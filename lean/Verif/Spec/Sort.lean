import Verif.Model.Sparse

/-!
# What `std::sort` promises
-/

namespace Linalg

/-- The contract of `std::sort` for comparators of the form `key(a) < key(b)` (all the comparators on `int`s in
the code have this form): the result is *some* rearrangement of the range in non-decreasing key order.  The
order of elements with equal keys is unspecified. -/
def IsSort (srt : Csr.Sorter) : Prop :=
  ∀ (key : Int → Int) (l : List Int),
    (srt (fun a b => decide (key a < key b)) l).Perm l ∧
      (srt (fun a b => decide (key a < key b)) l).Pairwise (fun a b => key a ≤ key b)

end Linalg
