import Verif.Spec.ParVec
import Verif.Proof.Vec
import Verif.Props.Vector
import Verif.Props.ParMult

/-!
# Lemmas on distributed vectors
-/

namespace Linalg
open Cpp

variable {α R : Type}

namespace Par

theorem IsShares.offset {xs : List (List R)} {o : List Int} (h : IsShares xs o) (p : Nat) (hp : p ≤ xs.length) :
    vecAt o p = ((xs.take p).flatten.length : Int) := by
  induction p with
  | zero => simpa using h.first
  | succ p ih =>
    have hs := h.share p (by omega)
    have := ih (by omega)
    rw [List.take_succ_eq_append_getElem (by omega), List.flatten_append]
    push_cast
    simp only [List.length_append, List.flatten_cons, List.flatten_nil, List.append_nil]
    push_cast
    omega

theorem IsShares.total {xs : List (List R)} {o : List Int} (h : IsShares xs o) : vecAt o xs.length = (xs.flatten.length : Int) := by
  rw [h.offset xs.length le_rfl, List.take_length]

/-- Element `i` of share `p` is element `o[p] + i` of the whole vector. -/
theorem IsShares.globalVec [Zero R] {xs : List (List R)} {o : List Int} (h : IsShares xs o) (p : Nat) (hp : p < xs.length) {i : Int}
    (h0 : 0 ≤ i) (h1 : i < xs[p].length) : Par.globalVec xs (vecAt o p + i) = vecAt xs[p] i := by
  rw [h.offset p (by omega)]
  have hsplit : xs = xs.take p ++ xs[p] :: xs.drop (p + 1) := by
    rw [← List.drop_eq_getElem_cons hp, List.take_append_drop]
  unfold Par.globalVec
  have e : xs.flatten = (xs.take p).flatten ++ (xs[p] ++ (xs.drop (p + 1)).flatten) := by
    conv_lhs => rw [hsplit]
    rw [List.flatten_append, List.flatten_cons]
  obtain ⟨k, rfl⟩ := Int.eq_ofNat_of_zero_le h0
  rw [e, ← Nat.cast_add, vecAt_nat _ _ (by simp only [List.length_append]; omega), vecAt_nat _ _ (by omega),
    List.getElem_append_right (by omega), List.getElem_append_left (by omega)]
  congr 1
  omega

/-- Two distributed vectors with the same starts are equal when the whole vectors agree. -/
theorem IsShares.ext [Zero R] {xs ys : List (List R)} {o : List Int} (hx : IsShares xs o) (hy : IsShares ys o)
    (h : ∀ g, 0 ≤ g → g < vecAt o xs.length → Par.globalVec xs g = Par.globalVec ys g) : xs = ys := by
  have hl : xs.length = ys.length := by have := hx.len; have := hy.len; omega
  refine List.ext_getElem hl (fun p hp hp' => ?_)
  have sx := hx.share p hp
  have sy := hy.share p hp'
  refine List.ext_getElem (by omega) (fun i hi hi' => ?_)
  have e1 := hx.globalVec p hp (i := (i : Int)) (by omega) (by omega)
  have e2 := hy.globalVec p hp' (i := (i : Int)) (by omega) (by omega)
  rw [vecAt_nat _ _ hi] at e1
  rw [vecAt_nat _ _ hi'] at e2
  rw [← e1, ← e2]
  have o1 := hx.offset p (by omega)
  have o2 := hx.total
  have e : xs.flatten.length = (xs.take p).flatten.length + (xs.drop p).flatten.length := by
    rw [← List.length_append, ← List.flatten_append, List.take_append_drop]
  have e' : (xs.drop p).flatten.length = xs[p].length + (xs.drop (p + 1)).flatten.length := by
    rw [List.drop_eq_getElem_cons hp, List.flatten_cons, List.length_append]
  exact h _ (by omega) (by omega)

/-- The value `MPI_Allreduce` with `MPI_SUM` returns everywhere. -/
theorem mpiAllreduceSum_eq [AddMonoid R] (l : List R) : mpiAllreduceSum l = List.replicate l.length l.sum := by
  unfold mpiAllreduceSum
  rw [List.map_const']
  rfl

theorem Vec_sum_list [AddCommMonoid R] (x : List R) : Vec.sum x = x.sum := by
  rw [Vec.sum_eq, list_sum_vecAt]

theorem Vec_inner_ok [NonUnitalNonAssocSemiring R] (x y : List R) (h : x.length = y.length) :
    Vec.inner x y = .ok (List.zipWith (· * ·) x y).sum := by
  unfold Vec.inner
  rw [cassert_true h.symm, ok_bind, foldl_add_sum _ (fun p : R × R => p.1 * p.2), zero_add]
  simp [List.zip, List.map_zipWith]

theorem sum_flatten_zipWith [NonUnitalNonAssocSemiring R] (ps : List (List R × List R)) (h : ∀ p ∈ ps, p.1.length = p.2.length) :
    (ps.map (fun p => (List.zipWith (· * ·) p.1 p.2).sum)).sum
      = (List.zipWith (· * ·) (ps.map Prod.fst).flatten (ps.map Prod.snd).flatten).sum := by
  induction ps with
  | nil => simp
  | cons p ps ih =>
    simp only [List.map_cons, List.sum_cons, List.flatten_cons]
    rw [List.zipWith_append (h p (by simp)), List.sum_append, ih (fun q hq => h q (by simp [hq]))]

end Par
end Linalg
