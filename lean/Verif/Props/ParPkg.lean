import Verif.Model.ParPkg
import Verif.Props.ParMult
import Verif.Props.Lobpcg

/-!
# C121: copies of communication packages, the number of stored entries, checks that throw
-/

namespace Linalg
open Cpp

namespace Par

/-- A package as hypre makes it: every array has the length that the counts and the last start say. -/
structure HyprePkg.WF (p : HyprePkg) : Prop where
  sends : 0 ≤ p.numSends ∧ (p.sendProcs.length : Int) = p.numSends ∧ (p.sendStarts.length : Int) = p.numSends + 1
  elmts : ∀ last, p.sendStarts.getLast? = some last → (p.sendElmts.length : Int) = last
  recvs : 0 ≤ p.numRecvs ∧ (p.recvProcs.length : Int) = p.numRecvs ∧ (p.recvStarts.length : Int) = p.numRecvs + 1

theorem copyN_all (src : List Int) (n : Int) (h : (src.length : Int) = n) : copyN src n = .ok src := by
  subst h
  unfold copyN
  rw [mkVec_nat, ok_bind, need_ok le_rfl, ok_bind, Int.toNat_natCast, List.take_length]
  unfold overwrite
  rw [List.drop_eq_nil_of_le (by rw [List.length_replicate]), List.append_nil]

theorem copyN_short (src : List Int) (n : Int) (h0 : 0 ≤ n) (h : (src.length : Int) < n) : copyN src n = .error .outOfBounds := by
  unfold copyN
  rw [mkVec_int h0, ok_bind]
  unfold need
  rw [if_neg (by omega)]
  rfl

end Par

/-- **C121.**  The copy of a communication package equals it. -/
theorem C121_copy (p : Par.HyprePkg) (hp : p.WF) : Par.makeCommPkg (some (some p)) = .ok p := by
  unfold Par.makeCommPkg
  rw [cassert_true (p := (some (some p)).isSome = true) rfl, ok_bind]
  unfold Par.parCommPkg
  simp only
  rw [Par.copyN_all _ _ hp.sends.2.1, ok_bind, Par.copyN_all _ _ hp.sends.2.2, ok_bind]
  have hne : p.sendStarts ≠ [] := by
    intro h
    have := hp.sends
    rw [h] at this
    simp at this
    omega
  have hl := List.getLast?_eq_some_getLast hne
  rw [hl]
  simp only
  rw [Par.copyN_all _ _ (hp.elmts _ hl), ok_bind, Par.copyN_all _ _ hp.recvs.2.1, ok_bind, Par.copyN_all _ _ hp.recvs.2.2, ok_bind]

/-- **C121.**  Without a matrix, `MakeCommPkg` stops at its assertion; the constructor given a null pointer does not get to its own.  Without a
package both stop. -/
theorem C121_null : Par.makeCommPkg none = .error .assertFail ∧ Par.parCommPkg none = .error .undefinedBehaviour ∧
    Par.makeCommPkg (some none) = .error .assertFail ∧ Par.parCommPkg (some none) = .error .assertFail :=
  ⟨rfl, rfl, rfl, rfl⟩

/-- **C121.**  `nnz()` is the number of entries that all processes store together. -/
theorem C121_nnz {α : Type} (Ms : List (ParMat α)) (ro co : List Int) (h : Par.IsDist Ms ro co) :
    Par.nnz Ms = .ok ((Ms.map (fun M => M.diag.nnz + M.offd.nnz)).sum) := by
  have hl : Ms.mapM Par.localNonzeros = .ok (Ms.map (fun M => M.diag.nnz + M.offd.nnz)) := by
    refine mapM_ok _ _ _ (fun M hM => ?_)
    obtain ⟨p, hp, rfl⟩ := List.getElem_of_mem hM
    have w := h.share p hp
    have last : ∀ A : Csr α, A.WF → rd A.indptr A.rows = .ok A.nnz := by
      intro A hA
      have h1 := hA.indptr_last
      have h2 := hA.indptr_len
      have h3 := hA.rows_nonneg
      rw [List.getLast?_eq_getElem?] at h1
      rw [rd_eq_ok]
      refine ⟨h3, ?_⟩
      rw [show A.rows.toNat = A.indptr.length - 1 by omega]
      exact h1
    unfold Par.localNonzeros
    rw [last _ w.diag_wf, ok_bind, show Ms[p].diag.rows = Ms[p].offd.rows by rw [w.diag_rows, w.offd_rows], last _ w.offd_wf, ok_bind]
  unfold Par.nnz
  rw [hl, ok_bind]

/-- **C121.**  `linalgcpp_verify` throws exactly when its condition is false. -/
theorem C121_verify (ndebug e : Bool) : linalgcppVerify ndebug e = .error .threw ↔ e = false := by
  cases e <;> simp [linalgcppVerify]

/-- **C121.**  Negation: `linalgcpp_assert` ("throw if false in debug mode only") throws in release mode only. -/
theorem C121_assert_false : (∃ e, linalgcppAssert true e = .error .threw) ∧ ∀ e, linalgcppAssert false e = .ok () :=
  ⟨⟨false, rfl⟩, fun _ => rfl⟩

/-- C121: the package of a process that receives one element from process 1 and sends it two. -/
example : (⟨1, [1], [0, 2], [3, 0], 1, [1], [0, 1]⟩ : Par.HyprePkg).WF ∧
    Par.parCommPkg (some (some ⟨1, [1], [0, 2], [3], 1, [1], [0, 1]⟩)) = .error .outOfBounds := by
  refine ⟨⟨by decide, ?_, by decide⟩, by decide +kernel⟩
  intro last h
  simp at h
  simp [← h]

end Linalg
