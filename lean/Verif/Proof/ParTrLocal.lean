import Verif.Proof.ParTranspose
import Verif.Props.ParMult
import Verif.Props.SparseTranspose

/-! # The last step of `ParMatrix::Transpose` on one process -/

namespace Linalg
open Cpp

variable {α β γ σ R : Type}

namespace Par

theorem trMap_ok (srt : Csr.Sorter) (hs : IsSort srt) (cols : List Int) :
    ∃ m, trMap srt cols (cols.length : Int) = .ok m ∧ m.Pairwise (· < ·) ∧ ∀ x, x ∈ m ↔ x ∈ cols := by
  obtain ⟨m, h1, h2, h3⟩ := productMap_ok srt hs cols []
  refine ⟨m, ?_, h2, by simpa using h3⟩
  rw [← h1]
  unfold trMap productMap
  by_cases h : cols = []
  · subst h; simp
  · have hl : (cols.length : Int) ≠ 0 := by
      intro hc
      exact h (List.length_eq_zero_iff.mp (by omega))
    have hsl : Csr.slice cols 0 (cols.length : Int) = .ok cols := by
      unfold Csr.slice
      rw [if_pos ⟨le_refl _, by omega, le_refl _⟩]
      simp
    rw [if_pos hl, if_pos (Or.inl hl), hsl]
    simp [forUp_nil, padTo]

theorem remapAll_ok (s : Int → Int) (l : List Int) :
    forUp 0 (l.length : Int) l (fun i oj => do
      let c ← rd oj i
      wr oj i (s c)) = .ok (l.map s) := by
  have := mapLoop s [] l []
  simpa using this

theorem trBuild_ok [AddCommMonoid R] (reorder : Csr R → Csr R) (hre : Reorders reorder) {A : ParMat R} {r0 r1 rn c0 c1 cn : Int}
    (hA : A.WF r0 r1 rn c0 c1 cn) (rs : List (List (Int × R))) (m : List Int) (hl : (rs.length : Int) = c1 - c0)
    (hrs : ∀ r ∈ rs, ∀ e ∈ r, 0 ≤ e.1 ∧ e.1 < (m.length : Int)) (hm : m.Pairwise (· < ·))
    (hmr : ∀ c ∈ m, (0 ≤ c ∧ c < rn) ∧ (c < r0 ∨ r1 ≤ c)) :
    ∃ M, trBuild reorder A (ptrs rs) (rs.flatten.map Prod.fst) (rs.flatten.map Prod.snd) m = .ok M ∧ M.WF c0 c1 cn r0 r1 rn ∧
      ∀ i g, M.coef i g = (if r0 ≤ g ∧ g < r1 then A.diag.coef (g - r0) i else 0)
        + ∑ k ∈ Finset.Ico (0 : Int) m.length, if vecAt m k = g then (Csr.ofRows (m.length : Int) rs).coef i k else 0 := by
  have hrS := hA.row_starts
  have hcS := hA.col_starts
  obtain ⟨B, b1, b2, b3, b4, -, -⟩ := C03_transpose A.diag hA.diag_wf
  obtain ⟨B', b1', b5⟩ := C03_transpose_coef A.diag hA.diag_wf
  rw [b1] at b1'
  obtain rfl := Except.ok.inj b1'
  have wo : (Csr.ofRows (m.length : Int) rs).WF := Csr.wf_ofRows (by omega) hrs
  have hrun : trBuild reorder A (ptrs rs) (rs.flatten.map Prod.fst) (rs.flatten.map Prod.snd) m
      = ParMat.new reorder A.colStarts A.rowStarts B (Csr.ofRows (m.length : Int) rs) m := by
    unfold trBuild
    have g1 : A.globalCols = cn := by unfold ParMat.globalCols; rw [hcS.eq]; rfl
    have g2 : A.globalRows = rn := by unfold ParMat.globalRows; rw [hrS.eq]; rfl
    have q0 : rd A.colStarts 0 = .ok c0 := by rw [hcS.eq]; rfl
    have q1 : rd A.colStarts 1 = .ok c1 := by rw [hcS.eq]; rfl
    have q2 : rd A.rowStarts 0 = .ok r0 := by rw [hrS.eq]; rfl
    have q3 : rd A.rowStarts 1 = .ok r1 := by rw [hrS.eq]; rfl
    have o := Csr.ofArrays_ofRows (n := (m.length : Int)) (rs := rs) (by omega) hrs
    rw [hl, ← hA.diag_cols] at o
    rw [q0, ok_bind, q1, ok_bind, q2, ok_bind, q3, ok_bind, b1, ok_bind, o, ok_bind, g1, g2, ← hcS.eq, ← hrS.eq]
  obtain ⟨M, hM⟩ := (C74_accepts reorder A.colStarts A.rowStarts B (Csr.ofRows (m.length : Int) rs) m).mpr
    ⟨c0, c1, cn, r0, r1, rn, hcS, hrS, by rw [b3, hA.diag_cols], by rw [b4, hA.diag_rows], Or.inr ⟨hl, rfl⟩, hm,
      fun c hc => (hmr c hc).1, fun c hc => (hmr c hc).2⟩
  obtain ⟨r0', r1', rn', c0', c1', cn', w1, w2, w3, w4, w5⟩ := C74_result reorder hre _ _ _ _ b2 wo m M hM
  have hr' := w1.row_starts.eq
  have hc' := w1.col_starts.eq
  rw [w2, hcS.eq] at hr'
  rw [w3, hrS.eq] at hc'
  simp only [List.cons.injEq, and_true] at hr' hc'
  obtain ⟨rfl, rfl, rfl⟩ := hr'
  obtain ⟨rfl, rfl, rfl⟩ := hc'
  refine ⟨M, by rw [hrun]; exact hM, w1, ?_⟩
  intro i g
  rw [w5]
  congr 1
  rw [b5]

/-- The coefficient of column `c` and row `g` among received rows. -/
def recvCoef [AddMonoid R] (E : List (Int × List (Int × R))) (i g : Int) : R :=
  (E.map (fun e => if e.1 = i then rowCoef e.2 g else 0)).sum

theorem rowCoef_bucket_recv [AddMonoid R] (E : List (Int × List (Int × R))) (i g : Int) :
    rowCoef (bucket (recvTriples E) i) g = recvCoef E i g := by
  induction E with
  | nil => rfl
  | cons e E ih =>
    have : recvTriples (e :: E) = rowTriples e ++ recvTriples E := by simp [recvTriples]
    rw [this, bucket_append, rowCoef_append, ih, bucket_rowTriples]
    unfold recvCoef
    rw [List.map_cons, List.sum_cons]
    congr 1
    split <;> rfl

theorem trFinish_ok [AddCommMonoid R] (srt : Csr.Sorter) (hs : IsSort srt) (search : List Int → Int → Int)
    (hsearch : IsSearch search) (reorder : Csr R → Csr R) (hre : Reorders reorder) {A : ParMat R} {r0 r1 rn c0 c1 cn : Int}
    (hA : A.WF r0 r1 rn c0 c1 cn) (pkg : CommPkg) (G : List (List (Int × List (Int × R)))) (hp : pkg.sendProcs.length = G.length)
    (hst : pkg.sendStarts = ptrs G) (he : pkg.sendElmts = G.flatten.map Prod.fst) (C : Nat) (hC : (C : Int) = c1 - c0)
    (hr : ∀ e ∈ G.flatten, 0 ≤ e.1 ∧ e.1 < (C : Int))
    (hg : ∀ e ∈ G.flatten, ∀ x ∈ e.2, (0 ≤ x.1 ∧ x.1 < rn) ∧ (x.1 < r0 ∨ r1 ≤ x.1)) :
    ∃ M, trFinish srt search reorder A pkg (G.flatten.map (fun e => (e.2.length : Int))) ((recvTriples G.flatten).map (fun t => t.1))
        ((recvTriples G.flatten).map (fun t => t.2.2)) (ptrs (trRows (recvTriples G.flatten) C)) = .ok M ∧ M.WF c0 c1 cn r0 r1 rn ∧
      ∀ i g, 0 ≤ i → i < c1 - c0 → M.coef i g = (if r0 ≤ g ∧ g < r1 then A.diag.coef (g - r0) i else 0) + recvCoef G.flatten i g := by
  have hT := recvTriples_ok hr
  have hfl := trRows_flatten_length' (recvTriples G.flatten) C hT
  obtain ⟨m, m1, m2, m3⟩ := trMap_ok srt hs ((recvTriples G.flatten).map (fun t => t.1))
  rw [List.length_map] at m1
  -- the columns of the new rows are in the map
  have hcols : ∀ r ∈ trRows (recvTriples G.flatten) C, ∀ e ∈ r, e.1 ∈ m := by
    intro r hr e he
    simp only [trRows, List.mem_map, List.mem_range] at hr
    obtain ⟨c, hc, rfl⟩ := hr
    simp only [bucket, List.mem_map, List.mem_filter] at he
    obtain ⟨t, ⟨ht, -⟩, rfl⟩ := he
    exact (m3 _).mpr (List.mem_map.mpr ⟨t, ht, rfl⟩)
  have hmr : ∀ c ∈ m, (0 ≤ c ∧ c < rn) ∧ (c < r0 ∨ r1 ≤ c) := by
    intro c hc
    obtain ⟨t, ht, rfl⟩ := List.mem_map.mp ((m3 c).mp hc)
    obtain ⟨e, he, ht⟩ := List.mem_flatMap.mp ht
    obtain ⟨x, hx, rfl⟩ := List.mem_map.mp ht
    exact hg e he x hx
  obtain ⟨M, k1, k2, k3⟩ := trBuild_ok reorder hre hA (mapCols (search m) (trRows (recvTriples G.flatten) C)) m
    (by simp [mapCols, hC]) (by
      intro r hr e he
      obtain ⟨r', hr', rfl⟩ := List.mem_map.mp hr
      obtain ⟨e', he', rfl⟩ := List.mem_map.mp he
      obtain ⟨s1, s2, -⟩ := hsearch m e'.1 m2 (hcols r' hr' e' he')
      exact ⟨s1, s2⟩) m2 hmr
  refine ⟨M, ?_, k2, ?_⟩
  · unfold trFinish
    have hfill := trFill_ok C pkg G hp hst he hr
    have hAc : A.diag.cols = (C : Int) := by rw [hA.diag_cols, hC]
    rw [hAc, hfill, ok_bind]
    simp only
    rw [m1, ok_bind]
    have hrm := remapAll_ok (search m) ((trRows (recvTriples G.flatten) C).flatten.map Prod.fst)
    rw [List.length_map, hfl] at hrm
    rw [hrm, ok_bind]
    have e1 : ((trRows (recvTriples G.flatten) C).flatten.map Prod.fst).map (search m)
        = (mapCols (search m) (trRows (recvTriples G.flatten) C)).flatten.map Prod.fst := by
      simp [mapCols, List.map_flatten, Function.comp_def]
    rw [e1, ← mapCols_ptrs (search m), ← mapCols_snd (search m)]
    exact k1
  · intro i g h0 h1
    rw [k3]
    congr 1
    have hi : i.toNat < (trRows (recvTriples G.flatten) C).length := by rw [length_trRows]; omega
    have e1 : ∀ k, (Csr.ofRows (m.length : Int) (mapCols (search m) (trRows (recvTriples G.flatten) C))).coef i k
        = rowCoef ((bucket (recvTriples G.flatten) i).map (fun e => (search m e.1, e.2))) k := by
      intro k
      rw [coef_ofRows_getD _ _ h0, mapCols, List.getD_eq_getElem?_getD, List.getElem?_map, List.getElem?_eq_getElem hi, getElem_trRows,
        Int.toNat_of_nonneg h0]
      rfl
    have hb : ∀ e ∈ bucket (recvTriples G.flatten) i, e.1 ∈ m := by
      intro e he
      refine hcols (bucket (recvTriples G.flatten) i) ?_ e he
      have := List.getElem_mem hi
      rw [getElem_trRows, Int.toNat_of_nonneg h0] at this
      exact this
    simp only [e1]
    rw [sum_mapCols m (search m) _ (by
      intro e he
      obtain ⟨s1, s2, -⟩ := hsearch m e.1 m2 (hb e he)
      exact ⟨s1, s2⟩), ← rowCoef_bucket_recv, rowCoef_eq_sum_ite]
    congr 1
    apply List.map_congr_left
    intro e he
    rw [(hsearch m e.1 m2 (hb e he)).2.2]

end Par
end Linalg
