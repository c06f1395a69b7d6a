import Verif.Proof.Fill

/-! # GetSubMatrix: helper lemmas -/

namespace Linalg
open Cpp

variable {α β σ : Type}

/-- The last position of `c` in `cols`. -/
def lastPos (cols : List Int) (c : Int) : Nat := cols.length - 1 - cols.reverse.idxOf c

theorem lastPos_snoc_self (cols : List Int) (c : Int) : lastPos (cols ++ [c]) c = cols.length := by
  unfold lastPos
  rw [List.reverse_append]
  simp

theorem lastPos_snoc_ne {cols : List Int} {c x : Int} (h : c ≠ x) : lastPos (cols ++ [x]) c = lastPos cols c := by
  unfold lastPos
  rw [List.reverse_append, List.reverse_singleton, List.singleton_append, List.idxOf_cons_ne _ (Ne.symm h)]
  simp only [List.length_append, List.length_singleton]
  omega

theorem lastPos_lt {cols : List Int} {c : Int} (h : c ∈ cols) : lastPos cols c < cols.length := by
  unfold lastPos
  have := List.length_pos_of_mem h
  omega

theorem lastPos_spec {cols : List Int} {c : Int} (h : c ∈ cols) :
    cols[lastPos cols c]'(lastPos_lt h) = c ∧ ∀ (k : Nat) (hk : k < cols.length), cols[k] = c → k ≤ lastPos cols c := by
  induction cols using List.reverseRecOn with
  | nil => cases h
  | append_singleton cols x ih =>
    by_cases e : c = x
    · subst e
      refine ⟨?_, fun k hk _ => ?_⟩
      · simp only [lastPos_snoc_self]
        simp
      · rw [lastPos_snoc_self]
        simp only [List.length_append, List.length_singleton] at hk
        omega
    · have hm : c ∈ cols := (List.mem_append.mp h).elim id (fun h => absurd (List.mem_singleton.mp h) e)
      obtain ⟨h1, h2⟩ := ih hm
      refine ⟨?_, fun k hk hc => ?_⟩
      · simp only [lastPos_snoc_ne e]
        rw [List.getElem_append_left (lastPos_lt hm)]
        exact h1
      · rw [lastPos_snoc_ne e]
        by_cases hk' : k < cols.length
        · rw [List.getElem_append_left hk'] at hc
          exact h2 k hk' hc
        · simp only [List.length_append, List.length_singleton] at hk
          have : k = cols.length := by omega
          subst this
          simp at hc
          exact absurd hc.symm e

theorem lastPos_nodup {cols : List Int} (hd : cols.Nodup) {c : Int} (h : c ∈ cols) : lastPos cols c = cols.idxOf c := by
  have h1 := (lastPos_spec h).1
  have h2 := List.getElem_idxOf (List.idxOf_lt_length_of_mem h)
  exact (List.Nodup.getElem_inj_iff hd).mp (h1.trans h2.symm)

/-- The marker after the column pass. -/
def mkMarker (M : Nat) (cols : List Int) : List Int :=
  (List.range M).map (fun c : Nat => if (c : Int) ∈ cols then ((lastPos cols (c : Int) : Nat) : Int) else -1)

theorem rd_mkMarker {M : Nat} {cols : List Int} {c : Int} (h0 : 0 ≤ c) (h1 : c < M) :
    rd (mkMarker M cols) c = .ok (if c ∈ cols then ((lastPos cols c : Nat) : Int) else -1) := by
  rw [rd_eq_ok]
  refine ⟨h0, ?_⟩
  rw [mkMarker, List.getElem?_map, List.getElem?_range (by omega)]
  simp only [Option.map_some, show ((c.toNat : Nat) : Int) = c by omega]

theorem marker_pass (M : Nat) (cols : List Int)
    (hc : ∀ c ∈ cols, 0 ≤ c ∧ c < (M : Int)) :
    forUp 0 (cols.length : Int) (List.replicate M (-1 : Int)) (fun i marker => do
      let c ← rd cols i
      wr marker c i) = .ok (mkMarker M cols) := by
  obtain ⟨s', h1, h2⟩ := forUp_inv_nat (n := cols.length) (f := fun i marker => do
      let c ← rd cols i
      wr marker c i)
    (fun i s => s = mkMarker M (cols.take i)) (s := List.replicate M (-1 : Int))
    (by simp [mkMarker, List.map_const']) (by
      rintro i s hi rfl
      have hci := hc cols[i] (List.getElem_mem hi)
      rw [rd_nat hi, ok_bind, wr_int hci.1 (by simp [mkMarker]; exact hci.2)]
      refine ⟨_, rfl, ?_⟩
      apply List.ext_getElem
      · simp [mkMarker]
      · intro k h1 h2
        have hk : k < M := by simpa [mkMarker] using h2
        rw [List.getElem_set]
        simp only [mkMarker, List.getElem_map, List.getElem_range]
        rw [take_succ_eq hi]
        by_cases hk' : cols[i].toNat = k
        · have e : (k : Int) = cols[i] := by omega
          rw [if_pos hk', e, if_pos (List.mem_append_right _ (List.mem_singleton.mpr rfl)), lastPos_snoc_self]
          simp [Nat.min_eq_left hi.le]
        · have e : (k : Int) ≠ cols[i] := by omega
          rw [if_neg hk']
          by_cases hm : (k : Int) ∈ cols.take i
          · rw [if_pos hm, if_pos (List.mem_append_left _ hm), lastPos_snoc_ne e]
          · rw [if_neg hm, if_neg (fun h => (List.mem_append.mp h).elim hm (fun h => e (List.mem_singleton.mp h)))])
  rw [h1, h2, List.take_length]

theorem marker_reset (M : Nat) (cols : List Int) (hc : ∀ c ∈ cols, 0 ≤ c ∧ c < (M : Int)) :
    cols.foldlM (fun marker i => wr marker i (-1)) (mkMarker M cols)
      = .ok (List.replicate M (-1 : Int)) := by
  obtain ⟨s', h1, h2⟩ := foldlM_inv (l := cols) (f := fun marker i => wr marker i (-1))
    (fun pre s => s.length = M ∧ ∀ (k : Nat) (h : k < s.length),
      s[k] = if (k : Int) ∈ pre then -1 else if (k : Int) ∈ cols then ((lastPos cols (k : Int) : Nat) : Int) else -1)
    (s := mkMarker M cols) (by simp [mkMarker]) (by
      intro pre x post s hl ⟨hs, hk⟩
      have hx := hc x (by rw [hl]; simp)
      rw [wr_int hx.1 (by omega)]
      refine ⟨_, rfl, by simpa using hs, ?_⟩
      intro k h
      rw [List.getElem_set]
      by_cases e : x.toNat = k
      · rw [if_pos e, if_pos]
        simp only [List.mem_append, List.mem_singleton]
        right; omega
      · rw [if_neg e, hk k (by simpa using h)]
        have : ((k : Int) ∈ pre ++ [x]) ↔ (k : Int) ∈ pre := by
          simp only [List.mem_append, List.mem_singleton]
          constructor
          · rintro (h | h)
            · exact h
            · omega
          · exact Or.inl
        simp only [this])
  rw [h1]
  congr 1
  apply List.ext_getElem
  · simp [h2.1]
  · intro k hk1 hk2
    rw [h2.2 k hk1]
    simp

/-- The entries of a row that fall in the selected columns, renumbered. -/
def selRow (cols : List Int) (r : List (Int × α)) : List (Int × α) :=
  (r.filter (fun e => e.1 ∈ cols)).map (fun e => (((lastPos cols e.1 : Nat) : Int), e.2))

theorem selRow_nil (cols : List Int) : selRow cols ([] : List (Int × α)) = [] := rfl

theorem selRow_cons (cols : List Int) (e : Int × α) (r : List (Int × α)) :
    selRow cols (e :: r) = (if e.1 ∈ cols then [(((lastPos cols e.1 : Nat) : Int), e.2)] else []) ++ selRow cols r := by
  unfold selRow
  by_cases h : e.1 ∈ cols <;> simp [h]

variable [Zero α]

theorem count_row {n : Int} {rs : List (List (Int × α))} {M : Nat} (cols : List Int) (k : Nat) (hk : k < rs.length)
    (hr : ∀ e ∈ rs[k], 0 ≤ e.1 ∧ e.1 < (M : Int)) (c0 : Int) :
    (Csr.ofRows n rs).forRow (k : Int) c0 (fun j c0 => do
        let c ← rd (Csr.ofRows n rs).indices j
        let m ← rd (mkMarker M cols) c
        if m ≠ -1 then .ok (c0 + 1) else .ok c0)
      = .ok (c0 + ((selRow cols rs[k]).length : Nat)) := by
  rw [Csr.forRow_ofRows n rs k hk _ _ (fun e c0 => do
        let m ← rd (mkMarker M cols) e.1
        if m ≠ -1 then .ok (c0 + 1) else .ok c0)]
  · generalize rs[k] = r at hr
    induction r generalizing c0 with
    | nil => simp [selRow_nil]
    | cons e r ih =>
      have he := hr e (by simp)
      rw [List.foldlM_cons, rd_mkMarker he.1 (by omega), ok_bind, selRow_cons]
      by_cases h : e.1 ∈ cols
      · simp only [h, if_true]
        rw [if_pos (by omega), ok_bind, ih _ (fun x hx => hr x (by simp [hx]))]
        congr 1
        simp; omega
      · simp only [h, if_false]
        rw [if_neg (by omega), ok_bind, ih _ (fun x hx => hr x (by simp [hx]))]
        rfl
  · intro m hm s
    rw [rd_indices_ofRows n rs k m hk hm]
    rfl

theorem fill_row {n : Int} {rs : List (List (Int × α))} {M N : Nat} (cols : List Int) (k : Nat) (hk : k < rs.length)
    (hr : ∀ e ∈ rs[k], 0 ≤ e.1 ∧ e.1 < (M : Int))
    (D : List (Int × α)) (hN : D.length + (selRow cols rs[k]).length ≤ N) :
    (Csr.ofRows n rs).forRow (k : Int) (((D.length : Nat) : Int), padTo N 0 (D.map Prod.fst), padTo N 0 (D.map Prod.snd))
      (fun j out => do
        let c ← rd (Csr.ofRows n rs).indices j
        let m ← rd (mkMarker M cols) c
        if m ≠ -1 then
          let ix ← wr out.2.1 out.1 m
          let d ← rd (Csr.ofRows n rs).data j
          let dt ← wr out.2.2 out.1 d
          .ok (out.1 + 1, ix, dt)
        else .ok out)
      = .ok (((D ++ selRow cols rs[k]).length : Int), padTo N 0 ((D ++ selRow cols rs[k]).map Prod.fst),
          padTo N 0 ((D ++ selRow cols rs[k]).map Prod.snd)) := by
  rw [Csr.forRow_ofRows n rs k hk _ _ (fun e out => do
        let m ← rd (mkMarker M cols) e.1
        if m ≠ -1 then
          let ix ← wr out.2.1 out.1 m
          let dt ← wr out.2.2 out.1 e.2
          .ok (out.1 + 1, ix, dt)
        else .ok out)]
  · generalize rs[k] = r at hr hN
    induction r generalizing D with
    | nil => simp [selRow_nil]
    | cons e r ih =>
      have he := hr e (by simp)
      rw [List.foldlM_cons, rd_mkMarker he.1 (by omega), ok_bind]
      rw [selRow_cons] at hN ⊢
      by_cases h : e.1 ∈ cols
      · simp only [h, if_true] at hN ⊢
        simp only [List.length_append, List.length_singleton] at hN
        rw [if_pos (by omega), wr_padTo (by simp; omega) (by simp), ok_bind,
          wr_padTo (by simp; omega) (by simp), ok_bind, ok_bind]
        have := ih (D ++ [(((lastPos cols e.1 : Nat) : Int), e.2)]) (fun x hx => hr x (by simp [hx]))
          (by simp; omega)
        simpa using this
      · simp only [h, if_false] at hN ⊢
        rw [if_neg (by omega), ok_bind, ih _ (fun x hx => hr x (by simp [hx])) (by simpa using hN)]
        rfl
  · intro m hm s
    rw [rd_indices_ofRows n rs k m hk hm, rd_data_ofRows n rs k m hk hm]
    simp only [ok_bind]

/-- Only the columns stored in the selected rows and the selected columns have to be positions of the marker. -/
theorem getSubMatrixMarker_sel {n : Int} {rs : List (List (Int × α))} (rows cols : List Int) (M : Nat) (hM : n ≤ M)
    (hrows : ∀ r ∈ rows, 0 ≤ r ∧ r < rs.length) (hcM : ∀ c ∈ cols, 0 ≤ c ∧ c < (M : Int))
    (hsel : ∀ k (hk : k < rs.length), (k : Int) ∈ rows → ∀ e ∈ rs[k], 0 ≤ e.1 ∧ e.1 < (M : Int)) :
    (Csr.ofRows n rs).getSubMatrixMarker rows cols (List.replicate M (-1))
      = .ok (Csr.ofRows (cols.length : Int) (rows.map (fun r => selRow cols (rs.getD r.toNat []))),
          List.replicate M (-1)) := by
  let rs' := rows.map (fun r => selRow cols (rs.getD r.toNat []))
  have hl : rs'.length = rows.length := by simp [rs']
  have hrow : ∀ (i : Nat) (hi : i < rows.length), ∃ k : Nat, ∃ hk : k < rs.length,
      rows[i] = (k : Int) ∧ rs'[i]'(by omega) = selRow cols rs[k] := by
    intro i hi
    have := hrows rows[i] (List.getElem_mem hi)
    refine ⟨rows[i].toNat, by omega, by omega, ?_⟩
    simp only [rs', List.getElem_map]
    rw [List.getD_eq_getElem?_getD, List.getElem?_eq_getElem (by omega)]; rfl
  unfold Csr.getSubMatrixMarker
  rw [cassert_true (by simp only [List.length_replicate]; exact_mod_cast hM)]
  simp only [ok_bind]
  have h0 : wr (List.replicate (rows.length + 1) (0 : Int)) 0 0 = .ok (List.replicate (rows.length + 1) (0 : Int)) := by
    have := wr_nat (v := List.replicate (rows.length + 1) (0 : Int)) (n := 0) (x := 0) (by simp)
    simpa using this
  rw [h0, ok_bind, marker_pass M cols hcM, ok_bind]
  -- counting pass
  have hcount : forUp 0 (rows.length : Int) ((0 : Int), List.replicate (rows.length + 1) (0 : Int)) (fun i st => do
      let row ← rd rows i
      cassert (row < (Csr.ofRows n rs).rows)
      let c ← (Csr.ofRows n rs).forRow row st.1 (fun j n' => do
        let c ← rd (Csr.ofRows n rs).indices j
        let m ← rd (mkMarker M cols) c
        if m ≠ -1 then .ok (n' + 1) else .ok n')
      let p ← wr st.2 (i + 1) c
      .ok (c, p)) = .ok (((rs'.flatten.length : Nat) : Int), ptrs rs') := by
    obtain ⟨s', h1, h2⟩ := forUp_inv_nat (n := rows.length) (f := fun i (st : Int × List Int) => do
      let row ← rd rows i
      cassert (row < (Csr.ofRows n rs).rows)
      let c ← (Csr.ofRows n rs).forRow row st.1 (fun j n' => do
        let c ← rd (Csr.ofRows n rs).indices j
        let m ← rd (mkMarker M cols) c
        if m ≠ -1 then .ok (n' + 1) else .ok n')
      let p ← wr st.2 (i + 1) c
      .ok (c, p))
      (fun i s => s = ((((rs'.take i).flatten.length : Nat) : Int),
        padTo (rows.length + 1) 0 (ptrs (rs'.take i))))
      (s := ((0 : Int), List.replicate (rows.length + 1) (0 : Int)))
      (by simp only [List.take_zero]; rw [← ptrs_zero_pad _ (by omega)]; rfl) (by
        rintro i s hi rfl
        obtain ⟨k, hk, e1, e2⟩ := hrow i hi
        rw [rd_nat hi, ok_bind, e1, cassert_true (by simp only [Csr.ofRows]; omega), ok_bind,
          count_row cols k hk (hsel k hk (e1 ▸ List.getElem_mem hi)), ok_bind]
        have e3 : (((rs'.take i).flatten.length : Nat) : Int) + (((selRow cols rs[k]).length : Nat) : Int)
            = (((rs'.take (i + 1)).flatten.length : Nat) : Int) := by
          rw [take_succ_eq (by omega), List.flatten_append, List.length_append, ← e2]
          simp [-List.length_flatten]
        simp only [e3]
        rw [wr_ptrs rs' (by omega) (by omega), ok_bind]
        exact ⟨_, rfl, rfl⟩)
    rw [h1, h2, List.take_of_length_le (by omega), padTo_full (by simp [hl])]
  rw [hcount, ok_bind]
  simp only [mkVec_nat, ok_bind]
  -- filling pass
  have hfill : rows.foldlM (fun out row =>
      (Csr.ofRows n rs).forRow row out (fun j out => do
        let c ← rd (Csr.ofRows n rs).indices j
        let m ← rd (mkMarker M cols) c
        if m ≠ -1 then
          let ix ← wr out.2.1 out.1 m
          let d ← rd (Csr.ofRows n rs).data j
          let dt ← wr out.2.2 out.1 d
          .ok (out.1 + 1, ix, dt)
        else .ok out))
      ((0 : Int), List.replicate rs'.flatten.length (0 : Int), List.replicate rs'.flatten.length (0 : α))
      = .ok (((rs'.flatten.length : Nat) : Int), rs'.flatten.map Prod.fst, rs'.flatten.map Prod.snd) := by
    obtain ⟨s', h1, h2⟩ := foldlM_inv (l := rows) (f := fun out row =>
      (Csr.ofRows n rs).forRow row out (fun j out => do
        let c ← rd (Csr.ofRows n rs).indices j
        let m ← rd (mkMarker M cols) c
        if m ≠ -1 then
          let ix ← wr out.2.1 out.1 m
          let d ← rd (Csr.ofRows n rs).data j
          let dt ← wr out.2.2 out.1 d
          .ok (out.1 + 1, ix, dt)
        else .ok out))
      (fun pre s => s = ((((pre.map (fun r => selRow cols (rs.getD r.toNat []))).flatten.length : Nat) : Int),
        padTo rs'.flatten.length 0 ((pre.map (fun r => selRow cols (rs.getD r.toNat []))).flatten.map Prod.fst),
        padTo rs'.flatten.length 0 ((pre.map (fun r => selRow cols (rs.getD r.toNat []))).flatten.map Prod.snd)))
      (s := ((0 : Int), List.replicate rs'.flatten.length (0 : Int), List.replicate rs'.flatten.length (0 : α)))
      (by simp [padTo, -List.length_flatten]) (by
        rintro pre x post s hx rfl
        have hxr := hrows x (by rw [hx]; simp)
        obtain ⟨k, rfl⟩ : ∃ k : Nat, x = k := ⟨x.toNat, by omega⟩
        have hk : k < rs.length := by omega
        have hg : rs.getD ((k : Nat) : Int).toNat [] = rs[k] := by
          simp only [Int.toNat_natCast]
          rw [List.getD_eq_getElem?_getD, List.getElem?_eq_getElem hk]; rfl
        have hflat : ((pre ++ [(k : Int)]).map (fun r => selRow cols (rs.getD r.toNat []))).flatten
            = (pre.map (fun r => selRow cols (rs.getD r.toNat []))).flatten ++ selRow cols rs[k] := by
          rw [List.map_append, List.flatten_append, List.map_cons, List.map_nil, hg]
          simp [-List.map_flatten]
        have hN : (pre.map (fun r => selRow cols (rs.getD r.toNat []))).flatten.length
            + (selRow cols rs[k]).length ≤ rs'.flatten.length := by
          have : rs'.flatten = ((pre ++ [(k : Int)]).map (fun r => selRow cols (rs.getD r.toNat []))).flatten
              ++ (post.map (fun r => selRow cols (rs.getD r.toNat []))).flatten := by
            rw [← List.flatten_append, ← List.map_append]
            simp only [rs', hx, List.append_assoc, List.singleton_append]
          rw [this, hflat, List.length_append, List.length_append]; omega
        refine ⟨_, fill_row cols k hk (hsel k hk (by rw [hx]; simp)) _ hN, ?_⟩
        rw [hflat])
    rw [h1, h2]
    show Except.ok (((rs'.flatten.length : Nat) : Int), padTo rs'.flatten.length 0 (rs'.flatten.map Prod.fst),
        padTo rs'.flatten.length 0 (rs'.flatten.map Prod.snd)) = _
    rw [padTo_full (by simp [-List.length_flatten, -List.map_flatten]), padTo_full (by simp [-List.length_flatten, -List.map_flatten])]
  rw [hfill, ok_bind, marker_reset M cols hcM, ok_bind]
  simp only
  have hof := Csr.ofArrays_ofRows (n := (cols.length : Int)) (rs := rs') (by omega) (by
    intro r hr e he
    obtain ⟨x, _, rfl⟩ := List.mem_map.mp hr
    obtain ⟨e', he', rfl⟩ := List.mem_map.mp he
    have := (List.mem_filter.mp he').2
    have := lastPos_lt (by simpa using this : e'.1 ∈ cols)
    simp only; omega)
  rw [hl] at hof
  rw [hof, ok_bind]

theorem getSubMatrixMarker_ofRows {n : Int} {rs : List (List (Int × α))}
    (hrs : ∀ r ∈ rs, ∀ e ∈ r, 0 ≤ e.1 ∧ e.1 < n) (rows cols : List Int) (M : Nat) (hM : n ≤ M)
    (hrows : ∀ r ∈ rows, 0 ≤ r ∧ r < rs.length) (hc : ∀ c ∈ cols, 0 ≤ c ∧ c < n) :
    (Csr.ofRows n rs).getSubMatrixMarker rows cols (List.replicate M (-1))
      = .ok (Csr.ofRows (cols.length : Int) (rows.map (fun r => selRow cols (rs.getD r.toNat []))),
          List.replicate M (-1)) :=
  getSubMatrixMarker_sel rows cols M hM hrows (fun c h => ⟨(hc c h).1, by have := (hc c h).2; omega⟩)
    fun k hk _ e he => by have := hrs _ (List.getElem_mem hk) e he; omega

end Linalg
