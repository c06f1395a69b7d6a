import Verif.Model.Partition
import Verif.Props.Vector
import Verif.Proof.Filter
import Mathlib.Data.Finset.Card
import Mathlib.Data.Int.Interval
import Mathlib.Algebra.Order.Ring.Rat
import Mathlib.Data.Rat.Floor

/-! # Graph partitioning -/

namespace Linalg
open Cpp

variable {α β : Type}

namespace Metis

/-! ## RemoveEmpty -/

theorem countLoop (n : Nat) (p : List Int) (hp : ∀ x ∈ p, 0 ≤ x ∧ x < n) :
    ∃ c : List Int, p.foldlM (fun c i => do
      let x ← rd c i
      wr c i (x + 1)) (List.replicate n (0 : Int)) = .ok c ∧ c.length = n ∧
      ∀ (k : Nat) (h : k < c.length), c[k] = (p.count (k : Int) : Int) := by
  obtain ⟨c, h1, h2, h3⟩ := foldlM_inv (l := p) (f := fun (c : List Int) i => (do
      let x ← rd c i
      wr c i (x + 1) : Res (List Int)))
    (fun pre c => c.length = n ∧ ∀ (k : Nat) (h : k < c.length), c[k] = (pre.count (k : Int) : Int))
    (s := List.replicate n (0 : Int)) ⟨by simp, by intro k h; simp⟩ (by
      rintro pre x post c hl ⟨hc, hk⟩
      have hx := hp x (by rw [hl]; simp)
      rw [rd_int hx.1 (by omega)]
      simp only [ok_bind]
      rw [wr_int hx.1 (by omega)]
      refine ⟨_, rfl, by simpa using hc, ?_⟩
      intro k h
      rw [List.length_set] at h
      have e0 := hk x.toNat (by omega)
      rw [List.getElem_set, List.count_append]
      by_cases e : x.toNat = k
      · have : x = (k : Int) := by omega
        rw [if_pos e, e0, this]
        simp
      · have : x ≠ (k : Int) := by omega
        rw [if_neg e, hk k h]
        simp [this])
  exact ⟨c, h1, h2, h3⟩

/-- How many of the labels below `x` do not occur. -/
def gaps (p : List Int) (x : Int) : Nat := ((Finset.Ico 0 x).filter (fun y => y ∉ p)).card

/-- How many of the labels below `x` occur. -/
def rank (p : List Int) (x : Int) : Nat := ((Finset.Ico 0 x).filter (fun y => y ∈ p)).card

theorem rank_add_gaps (p : List Int) {x : Int} (h : 0 ≤ x) : (rank p x : Int) + gaps p x = x := by
  have := Finset.card_filter_add_card_filter_not (s := Finset.Ico 0 x) (fun y => y ∈ p)
  unfold rank gaps
  rw [Int.card_Ico] at this
  omega

theorem gaps_succ (p : List Int) (k : Nat) :
    gaps p ((k : Int) + 1) = gaps p k + (if (k : Int) ∈ p then 0 else 1) := by
  unfold gaps
  have : Finset.Ico (0 : Int) ((k : Int) + 1) = insert (k : Int) (Finset.Ico 0 (k : Int)) := by
    ext y; simp only [Finset.mem_Ico, Finset.mem_insert]; omega
  rw [this, Finset.filter_insert]
  by_cases h1 : (k : Int) ∈ p
  · rw [if_neg (not_not.mpr h1), if_pos h1, Nat.add_zero]
  · rw [if_pos h1, if_neg h1, Finset.card_insert_of_notMem (by simp)]

theorem rank_lt (p : List Int) {x y : Int} (hx : x ∈ p) (h0 : 0 ≤ x) (h : x < y) : rank p x < rank p y := by
  apply Finset.card_lt_card
  refine ⟨fun z hz => ?_, fun hs => ?_⟩
  · simp only [Finset.mem_filter, Finset.mem_Ico] at hz ⊢
    exact ⟨⟨hz.1.1, by omega⟩, hz.2⟩
  · have := hs (show x ∈ _ by simp [hx, h0, h])
    simp at this

theorem rank_lt_iff (p : List Int) {x y : Int} (hx : x ∈ p) (hy : y ∈ p) (hx0 : 0 ≤ x) (hy0 : 0 ≤ y) :
    rank p x < rank p y ↔ x < y := by
  refine ⟨fun h => ?_, rank_lt p hx hx0⟩
  by_contra hn
  rcases lt_or_eq_of_le (not_lt.mp hn) with h2 | h2
  · have := rank_lt p hy hy0 h2; omega
  · subst h2; omega

theorem image_rank (p : List Int) (hp : ∀ x ∈ p, 0 ≤ x) :
    p.toFinset.image (rank p) = Finset.range p.toFinset.card := by
  apply Finset.eq_of_subset_of_card_le
  · intro k hk
    obtain ⟨x, hx, rfl⟩ := Finset.mem_image.mp hk
    rw [Finset.mem_range]
    apply Finset.card_lt_card
    refine ⟨fun z hz => ?_, fun hs => ?_⟩
    · simp only [Finset.mem_filter] at hz
      simpa using hz.2
    · have := hs hx
      simp at this
  · rw [Finset.card_range, Finset.card_image_of_injOn]
    intro x hx y hy hxy
    have hx' : x ∈ p := by simpa using hx
    have hy' : y ∈ p := by simpa using hy
    rcases lt_trichotomy x y with h | h | h
    · have := rank_lt p hx' (hp x hx') h; omega
    · exact h
    · have := rank_lt p hy' (hp y hy') h; omega

theorem shiftLoop (n : Nat) (p c : List Int) (hc : c.length = n)
    (hk : ∀ (k : Nat) (h : k < c.length), c[k] = (p.count (k : Int) : Int)) :
    ∃ s : Int × List Int, forUp 0 (n : Int) ((0 : Int), List.replicate n (0 : Int)) (fun i st => do
      let c ← rd c i
      let shift := if c = 0 then st.1 + 1 else st.1
      let shifter ← wr st.2 i shift
      .ok (shift, shifter)) = .ok s ∧ s.2.length = n ∧
      ∀ (k : Nat) (h : k < s.2.length), s.2[k] = (gaps p ((k : Int) + 1) : Int) := by
  obtain ⟨s, h1, h2, h3, h4⟩ := forUp_inv_nat (n := n) (f := fun i (st : Int × List Int) => (do
      let c ← rd c i
      let shift := if c = 0 then st.1 + 1 else st.1
      let shifter ← wr st.2 i shift
      .ok (shift, shifter) : Res (Int × List Int)))
    (fun k s => s.1 = gaps p k ∧ s.2.length = n ∧
      ∀ (m : Nat) (h : m < s.2.length), m < k → s.2[m] = (gaps p ((m : Int) + 1) : Int))
    (s := ((0 : Int), List.replicate n (0 : Int)))
    ⟨by simp [gaps], by simp, by intro m _ h; omega⟩ (by
      rintro k s hkn ⟨e1, e2, e3⟩
      rw [rd_nat (by omega : k < c.length)]
      simp only [ok_bind]
      rw [wr_nat (by omega), ok_bind]
      have hs : (if c[k]'(by omega) = 0 then s.1 + 1 else s.1) = (gaps p ((k : Int) + 1) : Int) := by
        rw [hk k (by omega), gaps_succ, e1]
        by_cases hm : (k : Int) ∈ p
        · have := List.count_pos_iff.mpr hm
          rw [if_neg (by omega), if_pos hm]; push_cast; ring
        · have := List.count_eq_zero.mpr hm
          rw [if_pos (by omega), if_neg hm]; push_cast; ring
      refine ⟨_, rfl, ?_, by simpa using e2, ?_⟩
      · rw [hs]; push_cast; rfl
      · intro m h hm
        simp only [List.length_set] at h
        simp only [List.getElem_set]
        by_cases e : k = m
        · rw [if_pos e, hs, e]
        · rw [if_neg e]; exact e3 m h (by omega))
  exact ⟨s, h1, h3, fun k h => h4 k h (by omega)⟩

theorem removeEmpty_eq (p : List Int) (hne : p ≠ []) (hp : ∀ x ∈ p, 0 ≤ x) :
    removeEmpty p = .ok (p.map (fun x => (rank p x : Int))) := by
  match p, hne with
  | a :: l, _ =>
    unfold removeEmpty
    simp only
    obtain ⟨m1, m2⟩ := maxElement_spec (α := Int) (β' := Int) (fun x => x) (fun a b => a < b) (fun _ _ => rfl) a l
    have hm0 := hp _ m1
    obtain ⟨n, hn⟩ : ∃ n : Nat, Vec.maxElement (fun a b => decide (a < b)) a l + 1 = (n : Int) := ⟨_, (Int.toNat_of_nonneg (by omega)).symm⟩
    rw [hn, mkVec_nat]
    simp only [ok_bind]
    have hb : ∀ x ∈ a :: l, 0 ≤ x ∧ x < n := fun x hx => ⟨hp x hx, by have := m2 x hx; omega⟩
    obtain ⟨c, c1, c2, c3⟩ := countLoop n (a :: l) hb
    rw [c1, ok_bind]
    obtain ⟨s, s1, s2, s3⟩ := shiftLoop n (a :: l) c c2 c3
    rw [s1, ok_bind]
    apply forUp_map
    intro i hi d hd hv
    rw [hv, ok_bind]
    have hx := hb _ (List.getElem_mem hi)
    rw [rd_int hx.1 (by omega), ok_bind, wr_nat (by omega), s3]
    congr 2
    rw [Int.toNat_of_nonneg hx.1]
    obtain ⟨k, hk⟩ := Int.eq_ofNat_of_zero_le hx.1
    have := rank_add_gaps (a :: l) hx.1
    have h2 := gaps_succ (a :: l) k
    rw [← hk, if_pos (List.getElem_mem hi)] at h2
    omega

/-- **C61.**  `RemoveEmpty` gives every vertex a new label so that the labels keep their order (hence also equality), and the
labels used are exactly `0, …, k-1`, where `k` is the number of different old labels. -/
theorem C61_removeEmpty (p : List Int) (hne : p ≠ []) (hp : ∀ x ∈ p, 0 ≤ x) :
    ∃ q, removeEmpty p = .ok q ∧ q.length = p.length ∧
      (∀ (i j : Nat) (hi : i < p.length) (hj : j < p.length), q.getD i 0 < q.getD j 0 ↔ p[i] < p[j]) ∧
      ∀ x, x ∈ q ↔ 0 ≤ x ∧ x < p.toFinset.card := by
  refine ⟨_, removeEmpty_eq p hne hp, by simp, fun i j hi hj => ?_, fun x => ?_⟩
  · rw [List.getD_eq_getElem?_getD, List.getD_eq_getElem?_getD, List.getElem?_map, List.getElem?_map,
      List.getElem?_eq_getElem hi, List.getElem?_eq_getElem hj]
    simp only [Option.map_some, Option.getD_some, Nat.cast_lt]
    exact rank_lt_iff p (List.getElem_mem hi) (List.getElem_mem hj) (hp _ (List.getElem_mem hi)) (hp _ (List.getElem_mem hj))
  · have him := image_rank p hp
    constructor
    · intro hx
      obtain ⟨y, hy, rfl⟩ := List.mem_map.mp hx
      have : rank p y ∈ Finset.range p.toFinset.card := by
        rw [← him]; exact Finset.mem_image_of_mem _ (by simpa using hy)
      rw [Finset.mem_range] at this
      omega
    · rintro ⟨h0, h1⟩
      have : x.toNat ∈ p.toFinset.image (rank p) := by rw [him, Finset.mem_range]; omega
      obtain ⟨y, hy, e⟩ := Finset.mem_image.mp this
      exact List.mem_map.mpr ⟨y, by simpa using hy, by omega⟩

/-- C61: without vertices the assertion fires; a negative label is an access out of bounds (or a negative vector size). -/
theorem C61_rejects : removeEmpty [] = .error .assertFail ∧
    ∀ p : List Int, (∃ x ∈ p, x < 0) → ∀ q, removeEmpty p ≠ .ok q := by
  refine ⟨rfl, ?_⟩
  rintro p ⟨x, hx, hneg⟩ q h
  match p, hx with
  | a :: l, hx =>
    unfold removeEmpty at h
    simp only [bind_eq_ok] at h
    obtain ⟨c0, _, s0, _, c1, h1, _⟩ := h
    have key : ∀ (l : List Int) (c c' : List Int), x ∈ l → l.foldlM (fun c i => (do
        let x ← rd c i
        wr c i (x + 1) : Res (List Int))) c = .ok c' → False := by
      intro l
      induction l with
      | nil => intro _ _ h; simp at h
      | cons b l ih =>
        intro c c' hm hf
        rw [List.foldlM_cons] at hf
        obtain ⟨c2, e1, e2⟩ := bind_eq_ok.mp hf
        rcases List.mem_cons.mp hm with rfl | hm
        · rw [rd_oob (Or.inl hneg)] at e1
          cases e1
        · exact ih _ _ hm e2
    exact key _ _ _ hx h1

/-- C61: labels 4, 0, 2 become 2, 0, 1. -/
example : removeEmpty [4, 0, 2, 4, 0] = .ok [2, 0, 1, 2, 0] := by decide

/-! ## MakeAdjacencyInfo -/

/-- The entries of row `i` off the diagonal, with their weights. -/
def offDiag [Lattice α] [AddGroup α] [One α] (conv : α → β) (weighted : Bool) (i : Int) (r : List (Int × α)) : List (Int × β) :=
  (r.filter (fun e => e.1 ≠ i)).map (fun e => (e.1, conv (if weighted then |e.2| else 1)))

theorem pushRow [Lattice α] [AddGroup α] [One α] (conv : α → β) (weighted : Bool) (i : Int) (r : List (Int × α))
    (s : List Int × List β) :
    r.foldlM (fun s e => (.ok (if e.1 ≠ i then (s.1 ++ [e.1], s.2 ++ [conv (if weighted then |e.2| else 1)]) else s) : Res _)) s
      = .ok (s.1 ++ (offDiag conv weighted i r).map Prod.fst, s.2 ++ (offDiag conv weighted i r).map Prod.snd) := by
  induction r generalizing s with
  | nil => simp [offDiag, pure_eq_ok]
  | cons e r ih =>
    rw [List.foldlM_cons, ok_bind, ih]
    by_cases h : e.1 = i <;> simp [offDiag, h]

theorem adjLoop [Lattice α] [AddGroup α] [One α] (conv : α → β) (weighted : Bool) (n : Int) (rs : List (List (Int × α))) :
    forUp 0 (Csr.ofRows n rs).rows (List.replicate (rs.length + 1) (0 : Int), ([] : List Int), ([] : List β)) (fun i st => do
      let e ← (Csr.ofRows n rs).forRow i (st.2.1, st.2.2) (pushEdge conv (Csr.ofRows n rs) weighted i)
      let indptr ← wr st.1 (i + 1) (e.1.length : Int)
      .ok (indptr, e.1, e.2))
    = .ok (let B := Csr.ofRows n (rs.mapIdx (fun k r => offDiag conv weighted (k : Int) r)); (B.indptr, B.indices, B.data)) := by
  have hr : (Csr.ofRows n rs).rows = (rs.length : Int) := rfl
  rw [hr]
  obtain ⟨s, h1, h2⟩ := forUp_inv_nat (n := rs.length) (f := fun i (st : List Int × List Int × List β) => (do
      let e ← (Csr.ofRows n rs).forRow i (st.2.1, st.2.2) (pushEdge conv (Csr.ofRows n rs) weighted i)
      let indptr ← wr st.1 (i + 1) (e.1.length : Int)
      .ok (indptr, e.1, e.2) : Res (List Int × List Int × List β)))
    (fun k st => st = (let B := Csr.ofRows n ((rs.take k).mapIdx (fun k r => offDiag conv weighted (k : Int) r))
      (B.indptr ++ List.replicate (rs.length - k) (0 : Int), B.indices, B.data)))
    (s := (List.replicate (rs.length + 1) (0 : Int), ([] : List Int), ([] : List β)))
    (by simp [Csr.ofRows, ptrs, List.replicate_succ]) (by
      rintro k st hk rfl
      simp only
      rw [Csr.forRow_ofRows n rs k hk _ _ (fun e (s : List Int × List β) =>
        .ok (if e.1 ≠ (k : Int) then (s.1 ++ [e.1], s.2 ++ [conv (if weighted then |e.2| else 1)]) else s))]
      · rw [pushRow, ok_bind]
        have hlen : ((rs.take k).mapIdx (fun k r => offDiag conv weighted (k : Int) r)).length = k := by
          simp; omega
        simp only
        have hw : ((k : Int) + 1) = ((k + 1 : Nat) : Int) := by push_cast; rfl
        rw [hw, wr_nat (by simp [Csr.ofRows]; omega), ok_bind]
        refine ⟨_, rfl, ?_⟩
        rw [List.take_succ_eq_append_getElem hk, List.mapIdx_concat]
        have ht : (rs.take k).length = k := by simp; omega
        rw [ht]
        simp only [Csr.ofRows, ptrs_concat, Prod.mk.injEq, List.flatten_append, List.map_append]
        refine ⟨?_, ?_, ?_⟩
        · obtain ⟨m, hm⟩ : ∃ m, rs.length - k = m + 1 := ⟨rs.length - k - 1, by omega⟩
          have hm' : rs.length - (k + 1) = m := by omega
          rw [hm, hm', List.replicate_succ, List.set_append_right _ _ (by rw [length_ptrs, hlen]), length_ptrs, hlen]
          simp only [Nat.sub_self, List.set_cons_zero, List.append_assoc, List.singleton_append]
          congr 2
          simp only [List.length_append, List.length_map]
        · simp
        · simp
      · intro m hm s
        unfold pushEdge
        rw [rd_indices_ofRows n rs k m hk hm, rd_data_ofRows n rs k m hk hm]
        simp only [ok_bind]
        by_cases hw : weighted
        · simp only [hw, if_true]
          split <;> rfl
        · simp only [hw]
          split <;> rfl)
  rw [h1, h2, List.take_length]
  simp

/-- **C62.**  For a square matrix with at most one diagonal entry too few (`nnz ≥ rows - 1`), `MakeAdjacencyInfo` returns the
well-formed CSR arrays that hold, row by row and in order, exactly the stored entries off the diagonal, each with weight 1, or
with its absolute value if weights are asked for. -/
theorem C62_adjacency [Lattice α] [AddGroup α] [One α] (conv : α → β) (A : Csr α) (hA : A.WF) (hsq : A.cols = A.rows)
    (hn : A.rows - 1 ≤ A.nnz) (weighted : Bool) :
    ∃ p i d, makeAdjacencyInfo conv A weighted = .ok (p, i, d) ∧ (Csr.mk A.rows A.cols p i d).WF ∧
      ∀ r, (Csr.mk A.rows A.cols p i d).row r
        = ((A.row r).filter (fun e => e.1 ≠ r)).map (fun e => (e.1, conv (if weighted then |e.2| else 1))) := by
  obtain ⟨n, rs, hn0, hrs, rfl⟩ := hA.exists_rows
  have hcols : n = (rs.length : Int) := hsq
  have key := adjLoop conv weighted n rs
  generalize hB : Csr.ofRows n (rs.mapIdx (fun k r => offDiag conv weighted (k : Int) r)) = B at key
  have hBB : Csr.mk (Csr.ofRows n rs).rows (Csr.ofRows n rs).cols B.indptr B.indices B.data = B := by
    rw [← hB]; simp [Csr.ofRows]
  refine ⟨B.indptr, B.indices, B.data, ?_, ?_, ?_⟩
  · unfold makeAdjacencyInfo
    rw [cassert_true hsq, ok_bind]
    have hr : (Csr.ofRows n rs).rows + 1 = ((rs.length + 1 : Nat) : Int) := by simp [Csr.ofRows]
    rw [hr, mkVec_nat, ok_bind, cverify_true (by
      have h2 : 0 ≤ (Csr.ofRows n rs).nnz - (Csr.ofRows n rs).rows ∨ (Csr.ofRows n rs).nnz - (Csr.ofRows n rs).rows = -1 := by omega
      rcases h2 with h2 | h2
      · exact Int.tdiv_nonneg h2 (by omega)
      · rw [h2]; decide), ok_bind]
    rw [show (0 : Int) = ((0 : Nat) : Int) from rfl, wr_nat (by simp), ok_bind]
    rw [show ((List.replicate (rs.length + 1) ((0 : Nat) : Int)).set 0 ((0 : Nat) : Int)) = List.replicate (rs.length + 1) (0 : Int) by
      simp [List.replicate_succ]]
    exact key
  · rw [hBB, ← hB]
    apply Csr.wf_ofRows hn0
    intro r hr e he
    obtain ⟨k, hk, rfl⟩ := List.mem_mapIdx.mp hr
    obtain ⟨e', he', rfl⟩ := List.mem_map.mp he
    exact hrs _ (List.getElem_mem hk) e' (List.mem_filter.mp he').1
  · intro r
    rw [hBB, ← hB]
    by_cases h0 : 0 ≤ r
    · rw [row_ofRows_getD _ _ h0, row_ofRows_getD _ _ h0, List.getD_eq_getElem?_getD, List.getD_eq_getElem?_getD,
        List.getElem?_mapIdx]
      cases rs[r.toNat]? with
      | none => simp
      | some x => simp only [Option.map_some, Option.getD_some, offDiag, Int.toNat_of_nonneg h0]
    · rw [Csr.row_neg _ (by omega), Csr.row_neg _ (by omega)]; rfl

/-- C62: with at least two diagonal entries too few the number of edges is computed as a negative number and `reserve` throws, even
for a graph given in the usual way without a diagonal. -/
theorem C62_throws [Lattice α] [AddGroup α] [One α] (conv : α → β) (A : Csr α) (hA : A.WF) (hsq : A.cols = A.rows)
    (hn : A.nnz ≤ A.rows - 2) (weighted : Bool) : makeAdjacencyInfo conv A weighted = .error .threw := by
  unfold makeAdjacencyInfo
  have := hA.rows_nonneg
  rw [cassert_true hsq, ok_bind, mkVec_int (by omega), ok_bind, cverify_false (by
    intro h
    have e : (A.nnz - A.rows).tdiv 2 = -((A.rows - A.nnz).tdiv 2) := by rw [← Int.neg_tdiv]; congr 1; omega
    have e2 : 1 ≤ (A.rows - A.nnz).tdiv 2 := by
      rw [Int.tdiv_eq_ediv_of_nonneg (by omega)]
      omega
    omega)]
  rfl

/-- C62: a rectangular matrix fires the assertion. -/
theorem C62_rejects [Lattice α] [AddGroup α] [One α] (conv : α → β) (A : Csr α) (h : A.cols ≠ A.rows) (weighted : Bool) :
    makeAdjacencyInfo conv A weighted = .error .assertFail := by
  unfold makeAdjacencyInfo
  rw [cassert_false h]
  rfl

/-- C62: the path 0 - 1 - 2 with its Laplacian; the weights are truncated absolute values. -/
example : makeAdjacencyInfo (α := Rat) (fun x => x.floor) ⟨3, 3, [0, 2, 5, 7], [0, 1, 0, 1, 2, 1, 2], [2, -5/2, -5/2, 3, -1, -1, 1]⟩ true
    = .ok ([0, 1, 3, 4], [1, 0, 2, 1], [2, 2, 1, 1]) := by decide +kernel

/-- C62: four vertices and one edge, without diagonal entries: the hypotheses of `C62_throws` hold. -/
example : (⟨4, 4, [0, 1, 2, 2, 2], [1, 0], [1, 1]⟩ : Csr Int).WF ∧
    makeAdjacencyInfo (fun x => x) (⟨4, 4, [0, 1, 2, 2, 2], [1, 0], [1, 1]⟩ : Csr Int) false = .error .threw := by decide

/-! ## Partition -/

/-- What is assumed of METIS: every vertex gets one of the parts asked for.  (A call that fails leaves the zero-initialised output
as it is, which satisfies this too.) -/
def Assigns (metis : Kway β) : Prop :=
  ∀ n xadj adjncy w parts contig, 0 ≤ n → 0 < parts → ((metis n xadj adjncy w parts contig).length : Int) = n ∧
    ∀ x ∈ metis n xadj adjncy w parts contig, 0 ≤ x ∧ x < parts

/-- **C73.**  `Partition` of a square matrix into `1 ≤ num_parts ≤ rows` parts returns a label for every row, and the labels used
are exactly `0, …, k-1` with `1 ≤ k ≤ num_parts`: no part is empty. -/
theorem C73_partition [Lattice α] [AddGroup α] [One α] (conv : α → β) (metis : Kway β) (hm : Assigns metis) (A : Csr α) (hA : A.WF)
    (hsq : A.cols = A.rows) (hn : A.rows - 1 ≤ A.nnz) (parts : Int) (h1 : 1 ≤ parts) (h2 : parts ≤ A.rows) (contig weighted : Bool) :
    ∃ q k, partition conv metis A parts contig weighted = .ok q ∧ (q.length : Int) = A.rows ∧ 1 ≤ k ∧ k ≤ parts ∧
      ∀ x, x ∈ q ↔ 0 ≤ x ∧ x < k := by
  unfold partition
  rw [cassert_true (by omega), ok_bind, cassert_true h2, ok_bind, cassert_true hsq, ok_bind]
  by_cases hp : parts < 2
  · rw [if_pos hp, mkVec_int (by omega)]
    refine ⟨_, 1, rfl, by simp; omega, le_rfl, by omega, fun x => ?_⟩
    rw [List.mem_replicate]
    constructor
    · rintro ⟨_, rfl⟩; omega
    · intro h; exact ⟨by omega, by omega⟩
  · rw [if_neg hp]
    obtain ⟨p, i, d, e, _, _⟩ := C62_adjacency conv A hA hsq hn weighted
    rw [e, ok_bind]
    simp only
    obtain ⟨m1, m2⟩ := hm A.rows p i d parts contig hA.rows_nonneg (by omega)
    generalize metis A.rows p i d parts contig = l at m1 m2
    have hl : l ≠ [] := by rintro rfl; simp at m1; omega
    obtain ⟨q, q1, q2, _, q4⟩ := C61_removeEmpty l hl (fun x hx => (m2 x hx).1)
    refine ⟨q, (l.toFinset.card : Int), q1, by omega, ?_, ?_, q4⟩
    · have : 0 < l.toFinset.card := Finset.card_pos.mpr (by simpa using hl)
      omega
    · have := Finset.card_le_card (show l.toFinset ⊆ Finset.Ico 0 parts from fun x hx => by
        simpa using m2 x (by simpa using hx))
      rw [Int.card_Ico] at this
      omega

/-- C73: a number of parts that is not positive or larger than the number of rows, and a rectangular matrix fire an assertion. -/
theorem C73_rejects [Lattice α] [AddGroup α] [One α] (conv : α → β) (metis : Kway β) (A : Csr α) (parts : Int)
    (h : parts ≤ 0 ∨ A.rows < parts ∨ A.cols ≠ A.rows) (contig weighted : Bool) :
    partition conv metis A parts contig weighted = .error .assertFail := by
  unfold partition
  by_cases h1 : parts > 0
  · rw [cassert_true h1, ok_bind]
    by_cases h2 : parts ≤ A.rows
    · rw [cassert_true h2, ok_bind, cassert_false (by omega)]; rfl
    · rw [cassert_false h2]; rfl
  · rw [cassert_false h1]; rfl

/-- A METIS that puts the first vertex in the last part and all others in the first. -/
def toyMetis : Kway Int := fun n _ _ _ parts _ => (iota n.toNat).map (fun x => if x = 0 then parts - 1 else 0)

/-- C73: three parts are asked for, the middle one comes back empty and is removed. -/
example : partition (fun x => x) toyMetis (⟨3, 3, [0, 1, 3, 4], [1, 0, 2, 1], [1, 1, 1, 1]⟩ : Csr Int) 3 true false
    = .ok [1, 0, 0] := by decide

/-- C73: the contract can be met. -/
example : Assigns toyMetis := by
  intro n xadj adjncy w parts contig hn h
  unfold toyMetis
  refine ⟨by simp; omega, fun x hx => ?_⟩
  obtain ⟨y, _, rfl⟩ := List.mem_map.mp hx
  split <;> omega

end Metis
end Linalg
