import Verif.Proof.InPlace

/-! # Diagonal, permutation and filtering loops: helper lemmas -/

namespace Linalg
open Cpp

variable {α β γ σ τ R : Type}

/-- A loop over all positions of a list, writing each position once, maps the list. -/
theorem forUp_map (L : List γ) (g : γ → γ) (f : Int → List γ → Res (List γ))
    (h : ∀ (p : Nat) (hp : p < L.length) (d : List γ), d.length = L.length →
      rd d (p : Int) = .ok L[p] → f (p : Int) d = .ok (d.set p (g L[p]))) :
    forUp 0 (L.length : Int) L f = .ok (L.map g) := by
  rw [forUp_zero_eq_foldlM]
  have h1 : (List.range L.length) = L.zipIdx.map (fun p => p.2) := by
    apply List.ext_getElem <;> simp
  rw [h1, List.foldlM_map]
  have := foldlM_zipIdx_set L id g (fun d p => f (p.2 : Int) d) (by
    intro p hp d hd hv
    exact h p hp d hd (by rw [rd_eq_ok]; exact ⟨by omega, by simpa using hv⟩))
  rwa [List.map_id] at this

/-- The diagonal scan of one row keeps the last match. -/
theorem foldl_last (r : List (Int × α)) (i : Int) (a : α) :
    r.foldl (fun val e => if e.1 = i then e.2 else val) a
      = ((r.filter (fun e => e.1 = i)).map Prod.snd).getLastD a := by
  induction r generalizing a with
  | nil => rfl
  | cons e r ih =>
    rw [List.foldl_cons, ih]
    by_cases h : e.1 = i
    · rw [if_pos h, List.filter_cons_of_pos (by simpa using h), List.map_cons, List.getLastD_cons]
    · rw [if_neg h, List.filter_cons_of_neg (by simpa using h)]

theorem ptrs_concat (rs : List (List β)) (r : List β) :
    ptrs (rs ++ [r]) = ptrs rs ++ [((rs.flatten.length + r.length : Nat) : Int)] := by
  unfold ptrs
  have e : (rs ++ [r]).length + 1 = (rs.length + 1) + 1 := by simp
  rw [e, List.range_succ, List.map_append]
  congr 1
  · apply List.map_congr_left
    intro k hk
    have := List.mem_range.mp hk
    rw [List.take_append_of_le_length (by omega)]
  · have : (rs ++ [r]).take (rs.length + 1) = rs ++ [r] := List.take_of_length_le (by simp)
    simp [-List.length_flatten, this]

theorem filterLoop_ofRows (n : Int) (rs : List (List (Int × α))) (keep : α → Prop) [DecidablePred keep] :
    forUp 0 (Csr.ofRows n rs).rows (([0] : List Int), ([] : List Int), ([] : List α)) (fun i st => do
      let e ← (Csr.ofRows n rs).forRow i (st.2.1, st.2.2) (fun j e => do
        let d ← rd (Csr.ofRows n rs).data j
        if keep d then
          let c ← rd (Csr.ofRows n rs).indices j
          .ok (e.1 ++ [c], e.2 ++ [d])
        else .ok e)
      .ok (st.1 ++ [(e.1.length : Int)], e.1, e.2))
    = .ok (let B := Csr.ofRows n (rs.map (fun r => r.filter (fun e => keep e.2)))
           (B.indptr, B.indices, B.data)) := by
  have hr : (Csr.ofRows n rs).rows = (rs.length : Int) := rfl
  rw [hr]
  obtain ⟨s, h1, h2⟩ := forUp_inv_nat (n := rs.length) (f := fun i (st : List Int × List Int × List α) => (do
      let e ← (Csr.ofRows n rs).forRow i (st.2.1, st.2.2) (fun j e => do
        let d ← rd (Csr.ofRows n rs).data j
        if keep d then
          let c ← rd (Csr.ofRows n rs).indices j
          .ok (e.1 ++ [c], e.2 ++ [d])
        else .ok e)
      .ok (st.1 ++ [(e.1.length : Int)], e.1, e.2) : Res (List Int × List Int × List α)))
    (fun k st => st = (let B := Csr.ofRows n ((rs.take k).map (fun r => r.filter (fun e => keep e.2)))
           (B.indptr, B.indices, B.data)))
    (s := (([0] : List Int), ([] : List Int), ([] : List α)))
    (by simp [Csr.ofRows, ptrs]) (by
      rintro k st hk rfl
      simp only
      rw [Csr.forRow_ofRows n rs k hk _ _ (fun e (s : List Int × List α) =>
        .ok (if keep e.2 then (s.1 ++ [e.1], s.2 ++ [e.2]) else s))]
      · have hf := (foldlM_eq_foldl (l := rs[k])
          (f := fun (s : List Int × List α) e => (.ok (if keep e.2 then (s.1 ++ [e.1], s.2 ++ [e.2]) else s) : Res _))
          (g := fun s e => if keep e.2 then (s.1 ++ [e.1], s.2 ++ [e.2]) else s) (fun _ => True)
          (s := ((Csr.ofRows n ((rs.take k).map (fun r => r.filter (fun e => keep e.2)))).indices,
                (Csr.ofRows n ((rs.take k).map (fun r => r.filter (fun e => keep e.2)))).data)) trivial
          (fun _ _ _ _ => ⟨rfl, trivial⟩)).1
        rw [hf]
        simp only [ok_bind]
        have hg : ∀ (r : List (Int × α)) (s : List Int × List α),
            r.foldl (fun s e => if keep e.2 then (s.1 ++ [e.1], s.2 ++ [e.2]) else s) s
            = (s.1 ++ (r.filter (fun e => keep e.2)).map Prod.fst,
               s.2 ++ (r.filter (fun e => keep e.2)).map Prod.snd) := by
          intro r
          induction r with
          | nil => intro s; simp
          | cons e r ih =>
            intro s
            rw [List.foldl_cons, ih]
            by_cases h : keep e.2 <;> simp [h]
        rw [hg]
        refine ⟨_, rfl, ?_⟩
        rw [List.take_succ_eq_append_getElem hk, List.map_append, List.map_cons, List.map_nil]
        simp only [Csr.ofRows, ptrs_concat, Prod.mk.injEq, List.flatten_append, List.map_append]
        refine ⟨?_, ?_, ?_⟩
        · congr 2
          simp only [List.length_append, List.length_map]
        · simp
        · simp
      · intro m hm s
        rw [rd_data_ofRows n rs k m hk hm, rd_indices_ofRows n rs k m hk hm]
        simp only [ok_bind]
        split <;> rfl)
  rw [h1, h2, List.take_length]

theorem filterRows_ok {n : Int} {rs : List (List (Int × α))} (q : Int × α → Bool)
    (h : ∀ r ∈ rs, ∀ e ∈ r, 0 ≤ e.1 ∧ e.1 < n) :
    ∀ r ∈ rs.map (fun r => r.filter q), ∀ e ∈ r, 0 ≤ e.1 ∧ e.1 < n := by
  intro r hr e he
  obtain ⟨r', hr', rfl⟩ := List.mem_map.mp hr
  exact h r' hr' e (List.mem_filter.mp he).1

theorem row_ofRows_map (n m : Int) (rs : List (List (Int × α))) (F : List (Int × α) → List (Int × β))
    (hF : F [] = []) (i : Int) :
    (Csr.ofRows m (rs.map F)).row i = F ((Csr.ofRows n rs).row i) := by
  by_cases h0 : 0 ≤ i
  · rw [row_ofRows_getD _ _ h0, row_ofRows_getD _ _ h0, List.getD_eq_getElem?_getD,
      List.getD_eq_getElem?_getD, List.getElem?_map]
    cases rs[i.toNat]? with
    | none => simp [hF]
    | some r => simp
  · rw [Csr.row_neg _ (by omega), Csr.row_neg _ (by omega), hF]

theorem ptrs_map_length (rs : List (List (Int × α))) (F : List (Int × α) → List (Int × β))
    (hF : ∀ r, (F r).length = r.length) : ptrs (rs.map F) = ptrs rs := by
  apply ptrs_congr
  rw [List.map_map]
  apply List.map_congr_left
  intro r _; exact hF r

end Linalg
