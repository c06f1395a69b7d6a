import Verif.Proof.Fill
import Verif.Proof.Triples

/-! # Sparse-sparse product: helper lemmas -/

namespace Linalg
open Cpp

variable {α β σ R : Type}

/-! ## Accumulating entries by column -/

/-- Add an entry to a row that stores each column once: to the stored value of its column if there is one,
else as a new last entry. -/
def accum [Add α] (D : List (Int × α)) (e : Int × α) : List (Int × α) :=
  match D[(D.map Prod.fst).idxOf e.1]? with
  | some old => D.set ((D.map Prod.fst).idxOf e.1) (old.1, old.2 + e.2)
  | none => D ++ [e]

theorem accum_new [Add α] {D : List (Int × α)} {e : Int × α} (h : e.1 ∉ D.map Prod.fst) :
    accum D e = D ++ [e] := by
  unfold accum
  rw [List.getElem?_eq_none]
  rw [List.idxOf_eq_length h]; simp

theorem accum_old [Add α] {D : List (Int × α)} {e : Int × α}
    (h : (D.map Prod.fst).idxOf e.1 < D.length) :
    accum D e = D.set ((D.map Prod.fst).idxOf e.1)
      (e.1, D[(D.map Prod.fst).idxOf e.1].2 + e.2) := by
  unfold accum
  rw [List.getElem?_eq_getElem h]
  have : D[(D.map Prod.fst).idxOf e.1].1 = e.1 := by
    have := List.getElem_idxOf (xs := D.map Prod.fst) (x := e.1) (by simpa using h)
    rwa [List.getElem_map] at this
  simp only [this]

theorem idxOf_lt_of_mem_fst {D : List (Int × α)} {c : Int} (h : c ∈ D.map Prod.fst) :
    (D.map Prod.fst).idxOf c < D.length := by
  have := List.idxOf_lt_length_of_mem h
  simpa using this

theorem accum_fst_old [Add α] {D : List (Int × α)} {e : Int × α} (h : e.1 ∈ D.map Prod.fst) :
    (accum D e).map Prod.fst = D.map Prod.fst := by
  rw [accum_old (idxOf_lt_of_mem_fst h), List.map_set]
  apply List.ext_getElem
  · simp
  · intro k h1 h2
    rw [List.getElem_set]
    split
    · rename_i hk
      subst hk
      rw [List.getElem_idxOf]
    · rfl

theorem accum_nodup [Add α] {D : List (Int × α)} {e : Int × α} (h : (D.map Prod.fst).Nodup) :
    ((accum D e).map Prod.fst).Nodup := by
  by_cases hm : e.1 ∈ D.map Prod.fst
  · rw [accum_fst_old hm]; exact h
  · rw [accum_new hm, List.map_append, List.nodup_append]
    refine ⟨h, by simp, ?_⟩
    intro a ha b hb hab
    simp only [List.map_cons, List.map_nil, List.mem_singleton] at hb
    exact hm (hb ▸ hab ▸ ha)

theorem accum_mem [Add α] {D : List (Int × α)} {e : Int × α} {c : Int} :
    c ∈ (accum D e).map Prod.fst ↔ c ∈ D.map Prod.fst ∨ c = e.1 := by
  by_cases hm : e.1 ∈ D.map Prod.fst
  · rw [accum_fst_old hm]
    constructor
    · exact Or.inl
    · rintro (h | rfl)
      · exact h
      · exact hm
  · rw [accum_new hm, List.map_append, List.mem_append]
    simp

theorem accum_length_le [Add α] (D : List (Int × α)) (e : Int × α) : D.length ≤ (accum D e).length := by
  unfold accum
  split <;> simp

theorem foldl_accum_length_le [Add α] (l : List (Int × α)) (D : List (Int × α)) :
    D.length ≤ (l.foldl accum D).length := by
  induction l generalizing D with
  | nil => simp
  | cons e l ih => exact (accum_length_le D e).trans (ih _)

theorem foldl_accum_nodup [Add α] (l : List (Int × α)) (D : List (Int × α)) (h : (D.map Prod.fst).Nodup) :
    ((l.foldl accum D).map Prod.fst).Nodup := by
  induction l generalizing D with
  | nil => simpa using h
  | cons e l ih => exact ih _ (accum_nodup h)

theorem foldl_accum_mem [Add α] (l : List (Int × α)) (D : List (Int × α)) (c : Int) :
    c ∈ (l.foldl accum D).map Prod.fst ↔ c ∈ D.map Prod.fst ∨ c ∈ l.map Prod.fst := by
  induction l generalizing D with
  | nil => simp
  | cons e l ih =>
    rw [List.foldl_cons, ih, accum_mem, List.map_cons, List.mem_cons]
    tauto

theorem rowCoef_set [AddCommMonoid R] (D : List (Int × R)) (k : Nat) (h : k < D.length) (v : R) (j : Int) :
    rowCoef (D.set k (D[k].1, D[k].2 + v)) j = rowCoef D j + if D[k].1 = j then v else 0 := by
  induction D generalizing k with
  | nil => simp at h
  | cons e D ih =>
    cases k with
    | zero =>
      simp only [List.set_cons_zero, List.getElem_cons_zero, rowCoef_cons]
      split
      · rw [add_right_comm]
      · simp
    | succ k =>
      simp only [List.set_cons_succ, List.getElem_cons_succ, rowCoef_cons]
      rw [ih k (by simpa using h), add_assoc]

theorem rowCoef_accum [AddCommMonoid R] (D : List (Int × R)) (e : Int × R) (j : Int) :
    rowCoef (accum D e) j = rowCoef D j + if e.1 = j then e.2 else 0 := by
  by_cases hm : e.1 ∈ D.map Prod.fst
  · have hlt := idxOf_lt_of_mem_fst hm
    have : D[(D.map Prod.fst).idxOf e.1].1 = e.1 := by
      have := List.getElem_idxOf (xs := D.map Prod.fst) (x := e.1) (by simpa using hlt)
      rwa [List.getElem_map] at this
    have h2 := rowCoef_set D _ hlt e.2 j
    rw [this] at h2
    rw [accum_old hlt, h2]
  · rw [accum_new hm, rowCoef_append, rowCoef_cons]
    simp

theorem rowCoef_foldl_accum [AddCommMonoid R] (l D : List (Int × R)) (j : Int) :
    rowCoef (l.foldl accum D) j = rowCoef D j + rowCoef l j := by
  induction l generalizing D with
  | nil => simp
  | cons e l ih =>
    rw [List.foldl_cons, ih, rowCoef_accum, rowCoef_cons, add_assoc]

/-! ## The doubly nested row loop -/

/-- The products contributing to a row of `A B`, in the order the code visits them. -/
def prodsRow [Mul α] (rb : List (List (Int × α))) (r : List (Int × α)) : List (Int × α) :=
  r.flatMap (fun a => (rb.getD a.1.toNat []).map (fun b => (b.1, a.2 * b.2)))

theorem forRow2_ofRows [Mul α] {n p : Int} {ra rb : List (List (Int × α))}
    (hra : ∀ r ∈ ra, ∀ e ∈ r, 0 ≤ e.1 ∧ e.1 < rb.length) (k : Nat) (hk : k < ra.length) (s : σ)
    (body : Int → Int → σ → Res σ) (g : Int × α → σ → Res σ)
    (hbody : ∀ (m : Nat) (hm : m < ra[k].length) (l m' : Nat) (hl : l < rb.length) (hm' : m' < rb[l].length) s,
      ra[k][m].1 = (l : Int) →
      body (((ra.take k).flatten.length + m : Nat) : Int) (((rb.take l).flatten.length + m' : Nat) : Int) s
        = g (rb[l][m'].1, ra[k][m].2 * rb[l][m'].2) s) :
    (Csr.ofRows n ra).forRow (k : Int) s (fun j s => do
        let l ← rd (Csr.ofRows n ra).indices j
        (Csr.ofRows p rb).forRow l s (fun j' s => body j j' s))
      = (prodsRow rb ra[k]).foldlM (fun s e => g e s) s := by
  rw [Csr.forRow_ofRows n ra k hk _ _ (fun e s =>
    ((rb.getD e.1.toNat []).map (fun b => (b.1, e.2 * b.2))).foldlM (fun s e => g e s) s)]
  · unfold prodsRow
    generalize ra[k] = r
    induction r generalizing s with
    | nil => rfl
    | cons a r ih =>
      rw [List.foldlM_cons, List.flatMap_cons, foldlM_append']
      congr 1
      funext s'
      exact ih s'
  · intro m hm s
    have he := hra ra[k] (List.getElem_mem hk) ra[k][m] (List.getElem_mem hm)
    obtain ⟨l, hl⟩ : ∃ l : Nat, ra[k][m].1 = (l : Int) := ⟨ra[k][m].1.toNat, by omega⟩
    have hl' : l < rb.length := by omega
    rw [rd_indices_ofRows n ra k m hk hm, ok_bind, hl,
      Csr.forRow_ofRows p rb l hl' _ _ (fun b s => g (b.1, ra[k][m].2 * b.2) s)]
    · rw [List.foldlM_map, List.getD_eq_getElem?_getD, Int.toNat_natCast, List.getElem?_eq_getElem hl']
      rfl
    · intro m' hm' s
      exact hbody m hm l m' hl' hm' s hl

theorem prodsRow_ok [Mul α] {p : Int} {rb : List (List (Int × α))}
    (hrb : ∀ r ∈ rb, ∀ e ∈ r, 0 ≤ e.1 ∧ e.1 < p) (r : List (Int × α)) :
    ∀ e ∈ prodsRow rb r, 0 ≤ e.1 ∧ e.1 < p := by
  intro e he
  obtain ⟨a, _, h2⟩ := List.mem_flatMap.mp he
  obtain ⟨b, hb, rfl⟩ := List.mem_map.mp h2
  by_cases h : a.1.toNat < rb.length
  · rw [List.getD_eq_getElem?_getD, List.getElem?_eq_getElem h] at hb
    exact hrb _ (List.getElem_mem h) b hb
  · rw [List.getD_eq_getElem?_getD, List.getElem?_eq_none (by omega)] at hb
    simp at hb

/-- The rows of the product. -/
def prodRows [Add α] [Mul α] (ra rb : List (List (Int × α))) : List (List (Int × α)) :=
  ra.map (fun r => (prodsRow rb r).foldl accum [])

theorem foldl_accum_ok [Add α] {p : Int} {l : List (Int × α)} (h : ∀ e ∈ l, 0 ≤ e.1 ∧ e.1 < p) :
    ∀ e ∈ l.foldl accum [], 0 ≤ e.1 ∧ e.1 < p := by
  intro e he
  have h1 : e.1 ∈ (l.foldl accum []).map Prod.fst := List.mem_map_of_mem he
  rw [foldl_accum_mem] at h1
  simp only [List.map_nil, List.not_mem_nil, false_or] at h1
  obtain ⟨e', he', h2⟩ := List.mem_map.mp h1
  rw [← h2]; exact h e' he'

/-! ## Symbolic pass, one row -/

theorem symbolic_row [Add α] (l : List (Int × α)) (p : Nat) (hl : ∀ e ∈ l, 0 ≤ e.1 ∧ e.1 < (p : Int))
    (i : Int) (mk : List Int) (hmk : mk.length = p) (hlt : ∀ m ∈ mk, m < i) (n0 : Int) :
    ∃ mk', l.foldlM (fun (mn : List Int × Int) (e : Int × α) => do
        let m ← rd mn.1 e.1
        if m ≠ i then
          let marker ← wr mn.1 e.1 i
          .ok (marker, mn.2 + 1)
        else .ok mn) (mk, n0) = (.ok (mk', n0 + (((l.foldl accum []).length : Nat) : Int)) : Res _) ∧
      mk'.length = p ∧ ∀ m ∈ mk', m < i + 1 := by
  obtain ⟨s', h1, h2, h3, h4⟩ := foldlM_inv (l := l) (f := fun (mn : List Int × Int) (e : Int × α) => do
        let m ← rd mn.1 e.1
        if m ≠ i then
          let marker ← wr mn.1 e.1 i
          .ok (marker, mn.2 + 1)
        else .ok mn)
    (fun pre s => s.1.length = p ∧ s.2 = n0 + (((pre.foldl accum []).length : Nat) : Int) ∧
      ∀ (c : Nat) (hc : c < s.1.length), s.1[c] ≤ i ∧ (s.1[c] = i ↔ (c : Int) ∈ (pre.foldl accum []).map Prod.fst))
    (s := (mk, n0)) (by
      refine ⟨hmk, by simp, ?_⟩
      intro c hc
      have := hlt _ (List.getElem_mem (l := mk) hc)
      show mk[c] ≤ i ∧ (mk[c] = i ↔ _)
      simp only [List.foldl_nil, List.map_nil, List.not_mem_nil, iff_false]
      omega) (by
      rintro pre e post ⟨m, n⟩ hle ⟨hs1, hs2, hs3⟩
      simp only at hs1 hs2 hs3 ⊢
      have he := hl e (by rw [hle]; simp)
      obtain ⟨c, hc⟩ : ∃ c : Nat, e.1 = (c : Int) := ⟨e.1.toNat, by omega⟩
      have hcp : c < m.length := by omega
      rw [List.foldl_append, List.foldl_cons, List.foldl_nil]
      obtain ⟨hm1, hm2⟩ := hs3 c hcp
      rw [hc, rd_nat hcp, ok_bind]
      by_cases hi : m[c] = i
      · rw [if_neg (not_not.mpr hi)]
        have hmem : e.1 ∈ (pre.foldl accum []).map Prod.fst := by rw [hc]; exact hm2.mp hi
        refine ⟨_, rfl, hs1, ?_, ?_⟩
        · have : (accum (pre.foldl accum []) e).length = (pre.foldl accum []).length := by
            have := congrArg List.length (accum_fst_old hmem)
            simpa using this
          rw [this]; exact hs2
        · rw [accum_fst_old hmem]; exact hs3
      · rw [if_pos hi, wr_nat hcp, ok_bind]
        have hnm : e.1 ∉ (pre.foldl accum []).map Prod.fst := by rw [hc]; exact fun h => hi (hm2.mpr h)
        refine ⟨_, rfl, by simpa using hs1, ?_, ?_⟩
        · rw [accum_new hnm, hs2]; simp; omega
        · intro c' hc'
          simp only [List.length_set] at hc'
          simp only [List.getElem_set]
          rw [accum_mem, hc]
          obtain ⟨a1, a2⟩ := hs3 c' hc'
          split
          · rename_i h; subst h; simp
          · rename_i h
            refine ⟨a1, ?_⟩
            rw [a2]
            constructor
            · exact Or.inl
            · rintro (h' | h')
              · exact h'
              · omega)
  refine ⟨s'.1, ?_, h2, ?_⟩
  · rw [h1, ← h3]
  · intro m hm
    obtain ⟨c, hc, rfl⟩ := List.getElem_of_mem hm
    have := (h4 c hc).1
    omega

/-! ## Numeric pass, one row -/

theorem numeric_row [Zero α] [Add α] (l : List (Int × α)) (p T : Nat) (hl : ∀ e ∈ l, 0 ≤ e.1 ∧ e.1 < (p : Int))
    (P : List (Int × α)) (hT : P.length + (l.foldl accum []).length ≤ T)
    (mk : List Int) (hmk : mk.length = p) (hlt : ∀ m ∈ mk, m < (P.length : Int)) :
    ∃ mk', l.foldlM (fun (st : List Int × Int × List Int × List α) (e : Int × α) => do
        let m ← rd st.1 e.1
        if m < (P.length : Int) then
          let marker ← wr st.1 e.1 st.2.1
          let ix ← wr st.2.2.1 st.2.1 e.1
          let dt ← wr st.2.2.2 st.2.1 e.2
          .ok (marker, st.2.1 + 1, ix, dt)
        else
          let old ← rd st.2.2.2 m
          let dt ← wr st.2.2.2 m (old + e.2)
          .ok (st.1, st.2.1, st.2.2.1, dt))
        (mk, (P.length : Int), padTo T 0 (P.map Prod.fst), padTo T 0 (P.map Prod.snd))
      = (.ok (mk', (((P ++ l.foldl accum []).length : Nat) : Int),
          padTo T 0 ((P ++ l.foldl accum []).map Prod.fst),
          padTo T 0 ((P ++ l.foldl accum []).map Prod.snd)) : Res _) ∧
      mk'.length = p ∧ ∀ m ∈ mk', m < ((P ++ l.foldl accum []).length : Int) := by
  obtain ⟨s', h1, mk', h2, h3, h4⟩ := foldlM_inv (l := l)
    (f := fun (st : List Int × Int × List Int × List α) (e : Int × α) => do
        let m ← rd st.1 e.1
        if m < (P.length : Int) then
          let marker ← wr st.1 e.1 st.2.1
          let ix ← wr st.2.2.1 st.2.1 e.1
          let dt ← wr st.2.2.2 st.2.1 e.2
          .ok (marker, st.2.1 + 1, ix, dt)
        else
          let old ← rd st.2.2.2 m
          let dt ← wr st.2.2.2 m (old + e.2)
          .ok (st.1, st.2.1, st.2.2.1, dt))
    (fun pre s => ∃ mk', s = (mk', (((P ++ pre.foldl accum []).length : Nat) : Int),
          padTo T 0 ((P ++ pre.foldl accum []).map Prod.fst),
          padTo T 0 ((P ++ pre.foldl accum []).map Prod.snd)) ∧ mk'.length = p ∧
        ∀ (c : Nat) (hc : c < mk'.length),
          if (c : Int) ∈ (pre.foldl accum []).map Prod.fst
          then mk'[c] = ((P.length + ((pre.foldl accum []).map Prod.fst).idxOf (c : Int) : Nat) : Int)
          else mk'[c] < (P.length : Int))
    (s := (mk, (P.length : Int), padTo T 0 (P.map Prod.fst), padTo T 0 (P.map Prod.snd))) (by
      refine ⟨mk, by simp, hmk, ?_⟩
      intro c hc
      simp only [List.foldl_nil, List.map_nil, List.not_mem_nil, if_false]
      exact hlt _ (List.getElem_mem hc)) (by
      rintro pre e post s hle ⟨m, rfl, hs2, hs3⟩
      have he := hl e (by rw [hle]; simp)
      obtain ⟨c, hc⟩ : ∃ c : Nat, e.1 = (c : Int) := ⟨e.1.toNat, by omega⟩
      have hcp : c < m.length := by omega
      have hmono : (accum (pre.foldl accum []) e).length ≤ (l.foldl accum []).length := by
        rw [hle, List.foldl_append, List.foldl_cons]
        exact foldl_accum_length_le _ _
      rw [List.foldl_append, List.foldl_cons, List.foldl_nil]
      have hsc := hs3 c hcp
      generalize pre.foldl accum [] = D at hs3 hmono hsc ⊢
      simp only
      rw [hc, rd_nat hcp, ok_bind]
      by_cases hm : (c : Int) ∈ D.map Prod.fst
      · rw [if_pos hm] at hsc
        have hm' : e.1 ∈ D.map Prod.fst := by rw [hc]; exact hm
        have hix := idxOf_lt_of_mem_fst hm
        have hix' := idxOf_lt_of_mem_fst hm'
        rw [hsc, if_neg (by omega), rd_padTo (by simp; omega), ok_bind, wr_padTo_set (by simp; omega), ok_bind]
        have hfst : ((P ++ accum D e).map Prod.fst) = (P ++ D).map Prod.fst := by
          rw [List.map_append, accum_fst_old hm', List.map_append]
        have hlen : (P ++ accum D e).length = (P ++ D).length := by
          have := congrArg List.length hfst
          simpa using this
        have hsnd : (P ++ accum D e).map Prod.snd
            = ((P ++ D).map Prod.snd).set (P.length + (D.map Prod.fst).idxOf (c : Int))
              (((P ++ D).map Prod.snd)[P.length + (D.map Prod.fst).idxOf (c : Int)]'(by simp; omega) + e.2) := by
          rw [accum_old hix']
          simp only [List.map_append, List.map_set]
          rw [List.set_append_right _ _ (by simp)]
          simp only [List.length_map, Nat.add_sub_cancel_left, hc]
          rw [List.getElem_append_right (by simp)]
          simp
        refine ⟨_, rfl, m, ?_, hs2, ?_⟩
        · rw [hfst, hlen, hsnd]
        · rw [accum_fst_old hm']; exact hs3
      · rw [if_neg hm] at hsc
        have hm' : e.1 ∉ D.map Prod.fst := by rw [hc]; exact hm
        have hlen : (accum D e).length = D.length + 1 := by rw [accum_new hm']; simp
        rw [if_pos hsc, wr_nat hcp, ok_bind, wr_padTo (by simp; omega) (by simp), ok_bind,
          wr_padTo (by simp; omega) (by simp), ok_bind]
        refine ⟨_, rfl, m.set c (((P ++ D).length : Nat) : Int), ?_, by simpa using hs2, ?_⟩
        · rw [accum_new hm']
          simp [hc]
          omega
        · intro c' hc'
          have hc' : c' < m.length := by simpa using hc'
          rw [List.getElem_set, accum_new hm', List.map_append, List.map_cons, List.map_nil]
          have h3' := hs3 c' hc'
          by_cases hcc : c = c'
          · subst hcc
            rw [if_pos rfl, if_pos (by simp [hc]), List.idxOf_append_of_notMem hm, hc]
            simp
          · rw [if_neg hcc]
            by_cases hm2 : (c' : Int) ∈ D.map Prod.fst
            · rw [if_pos hm2] at h3'
              rw [if_pos (List.mem_append_left _ hm2), List.idxOf_append_of_mem hm2]
              exact h3'
            · rw [if_neg hm2] at h3'
              rw [if_neg]
              · exact h3'
              · intro h
                rcases List.mem_append.mp h with h | h
                · exact hm2 h
                · have := List.mem_singleton.mp h
                  omega)
  refine ⟨mk', ?_, h3, ?_⟩
  · rw [h1, h2]
  · intro m hm
    obtain ⟨c, hc, rfl⟩ := List.getElem_of_mem hm
    have := h4 c hc
    split at this
    · rename_i h
      have := idxOf_lt_of_mem_fst h
      simp only [List.length_append]; omega
    · simp only [List.length_append]; omega

/-! ## The whole product -/

theorem multSparseMarker_ofRows [Zero α] [Add α] [Mul α] {n p : Int} {ra rb : List (List (Int × α))}
    (hn : n = rb.length) (hp : 0 ≤ p)
    (hra : ∀ r ∈ ra, ∀ e ∈ r, 0 ≤ e.1 ∧ e.1 < n) (hrb : ∀ r ∈ rb, ∀ e ∈ r, 0 ≤ e.1 ∧ e.1 < p)
    (marker : List Int) :
    (Csr.ofRows n ra).multSparseMarker (Csr.ofRows p rb) marker = .ok (Csr.ofRows p (prodRows ra rb)) := by
  subst hn
  obtain ⟨p, rfl⟩ : ∃ q : Nat, p = q := ⟨p.toNat, by omega⟩
  let rs' := prodRows ra rb
  have hl : rs'.length = ra.length := by simp [rs', prodRows]
  have hrow : ∀ (i : Nat) (hi : i < ra.length), rs'[i]'(by omega) = (prodsRow rb ra[i]).foldl accum [] := by
    intro i hi; simp [rs', prodRows]
  unfold Csr.multSparseMarker
  rw [cassert_true (by simp [Csr.ofRows])]
  simp only [ok_bind]
  have hres : (resize marker (Csr.ofRows (p : Int) rb).cols.toNat 0).length = p := by
    simp [Csr.ofRows, resize]; omega
  rw [hres]
  have h1 : mkVec ((Csr.ofRows ((rb.length : Nat) : Int) ra).rows + 1) (0 : Int) = .ok (List.replicate (ra.length + 1) 0) := by
    have := mkVec_nat (ra.length + 1) (0 : Int)
    push_cast at this
    exact this
  have h0 : wr (List.replicate (ra.length + 1) (0 : Int)) 0 0 = .ok (List.replicate (ra.length + 1) (0 : Int)) := by
    have := wr_nat (v := List.replicate (ra.length + 1) (0 : Int)) (n := 0) (x := 0) (by simp)
    simpa using this
  rw [h1, ok_bind, h0, ok_bind]
  have hrows : (Csr.ofRows ((rb.length : Nat) : Int) ra).rows = (ra.length : Int) := rfl
  rw [hrows]
  -- symbolic pass
  obtain ⟨st, hst, hI⟩ := forUp_inv_nat (n := ra.length) (f := fun i (st : List Int × Int × List Int) => do
    let mn ← (Csr.ofRows ((rb.length : Nat) : Int) ra).forRow i (st.1, st.2.1) (fun j mn => do
      let l ← rd (Csr.ofRows ((rb.length : Nat) : Int) ra).indices j
      (Csr.ofRows (p : Int) rb).forRow l mn (fun k mn => do
        let c ← rd (Csr.ofRows (p : Int) rb).indices k
        let m ← rd mn.1 c
        if m ≠ i then
          let marker ← wr mn.1 c i
          .ok (marker, mn.2 + 1)
        else .ok mn))
    let q ← wr st.2.2 (i + 1) mn.2
    .ok (mn.1, mn.2, q))
    (fun i s => s.1.length = p ∧ (∀ m ∈ s.1, m < (i : Int)) ∧
      s.2.1 = (((rs'.take i).flatten.length : Nat) : Int) ∧
      s.2.2 = padTo (ra.length + 1) 0 (ptrs (rs'.take i)))
    (s := (List.replicate p (-1 : Int), (0 : Int), List.replicate (ra.length + 1) (0 : Int)))
    (by
      refine ⟨by simp, ?_, by simp, ?_⟩
      · intro m hm
        rw [List.eq_of_mem_replicate hm]; simp
      · simp only [List.take_zero]; exact ptrs_zero_pad _ (by omega)) (by
      rintro i ⟨mk, c, q⟩ hi ⟨a1, a2, a3, a4⟩
      simp only at a1 a2 a3 a4 ⊢
      rw [forRow2_ofRows hra i hi _ _ (fun e (mn : List Int × Int) => do
        let m ← rd mn.1 e.1
        if m ≠ i then
          let marker ← wr mn.1 e.1 i
          .ok (marker, mn.2 + 1)
        else .ok mn)]
      · obtain ⟨mk', b1, b2, b3⟩ := symbolic_row (prodsRow rb ra[i]) p (prodsRow_ok hrb _) (i : Int) mk a1 a2 c
        rw [b1, ok_bind]
        have e3 : c + ((((prodsRow rb ra[i]).foldl accum []).length : Nat) : Int)
            = (((rs'.take (i + 1)).flatten.length : Nat) : Int) := by
          rw [take_succ_flatten_length rs' i (by omega), hrow i hi, a3]; push_cast; rfl
        simp only [e3]
        rw [a4, wr_ptrs rs' (by omega) (by omega), ok_bind]
        exact ⟨_, rfl, b2, by push_cast; exact b3, rfl, rfl⟩
      · intro m hm l m' hl' hm' s _
        rw [rd_indices_ofRows _ rb l m' hl' hm', ok_bind])
  obtain ⟨mk, c, q⟩ := st
  obtain ⟨a1, a2, a3, a4⟩ := hI
  simp only at a1 a2 a3 a4
  rw [List.take_of_length_le (by omega)] at a3 a4
  rw [padTo_full (by simp [hl])] at a4
  rw [hst, ok_bind]
  simp only [a1, a3, mkVec_nat, ok_bind]
  -- numeric pass
  obtain ⟨st2, hst2, hI2⟩ := forUp_inv_nat (n := ra.length)
    (f := fun i (st : List Int × Int × List Int × List α) =>
    (Csr.ofRows ((rb.length : Nat) : Int) ra).forRow i st (fun j st' => do
      let l ← rd (Csr.ofRows ((rb.length : Nat) : Int) ra).indices j
      (Csr.ofRows (p : Int) rb).forRow l st' (fun k st' => do
        let c ← rd (Csr.ofRows (p : Int) rb).indices k
        let m ← rd st'.1 c
        let a ← rd (Csr.ofRows ((rb.length : Nat) : Int) ra).data j
        let b ← rd (Csr.ofRows (p : Int) rb).data k
        if m < st.2.1 then
          let marker ← wr st'.1 c st'.2.1
          let ix ← wr st'.2.2.1 st'.2.1 c
          let dt ← wr st'.2.2.2 st'.2.1 (a * b)
          .ok (marker, st'.2.1 + 1, ix, dt)
        else
          let old ← rd st'.2.2.2 m
          let dt ← wr st'.2.2.2 m (old + a * b)
          .ok (st'.1, st'.2.1, st'.2.2.1, dt))))
    (fun i s => s.1.length = p ∧ (∀ m ∈ s.1, m < (((rs'.take i).flatten.length : Nat) : Int)) ∧
      s.2 = ((((rs'.take i).flatten.length : Nat) : Int),
        padTo rs'.flatten.length 0 ((rs'.take i).flatten.map Prod.fst),
        padTo rs'.flatten.length 0 ((rs'.take i).flatten.map Prod.snd)))
    (s := (List.replicate p (-1 : Int), (0 : Int), List.replicate rs'.flatten.length (0 : Int),
      List.replicate rs'.flatten.length (0 : α)))
    (by
      refine ⟨by simp, ?_, by simp [padTo, -List.length_flatten]⟩
      intro m hm
      rw [List.eq_of_mem_replicate hm]; simp) (by
      rintro i ⟨mk, st⟩ hi ⟨a1, a2, a3⟩
      simp only at a1 a2 a3 ⊢
      subst a3
      simp only
      rw [forRow2_ofRows hra i hi _ _ (fun e (st : List Int × Int × List Int × List α) => do
        let m ← rd st.1 e.1
        if m < (((rs'.take i).flatten.length : Nat) : Int) then
          let marker ← wr st.1 e.1 st.2.1
          let ix ← wr st.2.2.1 st.2.1 e.1
          let dt ← wr st.2.2.2 st.2.1 e.2
          .ok (marker, st.2.1 + 1, ix, dt)
        else
          let old ← rd st.2.2.2 m
          let dt ← wr st.2.2.2 m (old + e.2)
          .ok (st.1, st.2.1, st.2.2.1, dt))]
      · have hflat : (rs'.take (i + 1)).flatten
            = (rs'.take i).flatten ++ (prodsRow rb ra[i]).foldl accum [] := by
          rw [take_succ_eq (by omega), List.flatten_append, hrow i hi]; simp
        have hT : (rs'.take i).flatten.length + ((prodsRow rb ra[i]).foldl accum []).length
            ≤ rs'.flatten.length := by
          rw [← List.length_append, ← hflat]
          have : rs'.flatten = (rs'.take (i + 1)).flatten ++ (rs'.drop (i + 1)).flatten := by
            rw [← List.flatten_append, List.take_append_drop]
          rw [this, List.length_append]; omega
        obtain ⟨mk', b1, b2, b3⟩ := numeric_row (prodsRow rb ra[i]) p rs'.flatten.length
          (prodsRow_ok hrb _) (rs'.take i).flatten hT mk a1 a2
        rw [b1, hflat]
        exact ⟨_, rfl, b2, b3, rfl⟩
      · intro m hm l m' hl' hm' s _
        rw [rd_indices_ofRows _ rb l m' hl' hm', rd_data_ofRows _ rb l m' hl' hm',
          rd_data_ofRows _ ra i m hi hm]
        simp only [ok_bind])
  obtain ⟨mk2, st2⟩ := st2
  obtain ⟨b1, b2, b3⟩ := hI2
  simp only at b1 b2 b3
  subst b3
  rw [List.take_of_length_le (by omega), padTo_full (by simp [-List.length_flatten, -List.map_flatten]),
    padTo_full (by simp [-List.length_flatten, -List.map_flatten])] at hst2
  rw [hst2, ok_bind, a4]
  simp only
  have := Csr.ofArrays_ofRows (n := (p : Int)) (rs := rs') hp (by
    intro r hr
    obtain ⟨x, _, rfl⟩ := List.mem_map.mp hr
    exact foldl_accum_ok (prodsRow_ok hrb x))
  rw [hl] at this
  exact this

end Linalg
