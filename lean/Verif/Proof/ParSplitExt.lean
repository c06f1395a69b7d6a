import Verif.Proof.ParMult
import Verif.Spec.Sort

/-! # Products of distributed matrices: splitting the received rows, helper lemmas -/

namespace Linalg
open Cpp

variable {α β σ τ R : Type}

namespace Par

/-- The part of a row in own columns, numbered locally. -/
def ownRow (first last : Int) (r : List (Int × α)) : List (Int × α) :=
  (r.filter (fun e => !isOther first last e.1)).map (fun e => (e.1 - first, e.2))

/-- The part of a row in other columns. -/
def otherRow (first last : Int) (r : List (Int × α)) : List (Int × α) := r.filter (fun e => isOther first last e.1)

theorem extSizes_ok (first last : Int) {K : Int} (re : List (List (Int × α))) :
    extSizes first last (re.length : Int) (Csr.ofRows K re) (List.replicate (re.length + 1) 0) (List.replicate (re.length + 1) 0)
      = .ok ((padTo (re.length + 1) 0 ((ptrs (re.map (ownRow first last))).take re.length),
          padTo (re.length + 1) 0 ((ptrs (re.map (otherRow first last))).take re.length)),
        (((re.map (ownRow first last)).flatten.length : Nat) : Int), (((re.map (otherRow first last)).flatten.length : Nat) : Int)) := by
  unfold extSizes
  obtain ⟨s, h1, h2⟩ := forUp_inv_nat (n := re.length) (f := fun i (st : (List Int × List Int) × (Int × Int)) => do
    let di ← wr st.1.1 i st.2.1
    let oi ← wr st.1.2 i st.2.2
    let s ← (Csr.ofRows K re).forRow i st.2 (fun j s => do
      let c ← rd (Csr.ofRows K re).indices j
      if isOther first last c then .ok (s.1, s.2 + 1) else .ok (s.1 + 1, s.2))
    .ok ((di, oi), s))
    (fun i st => st = ((padTo (re.length + 1) 0 ((ptrs (re.map (ownRow first last))).take i),
          padTo (re.length + 1) 0 ((ptrs (re.map (otherRow first last))).take i)),
        ((((re.map (ownRow first last)).take i).flatten.length : Nat) : Int),
        ((((re.map (otherRow first last)).take i).flatten.length : Nat) : Int)))
    (s := ((List.replicate (re.length + 1) 0, List.replicate (re.length + 1) 0), ((0 : Int), (0 : Int))))
    (by simp [padTo]) (by
      rintro i st hi rfl
      have w1 := wr_ptrs_take (re.map (ownRow first last)) (k := i) (by simp; omega)
      have w2 := wr_ptrs_take (re.map (otherRow first last)) (k := i) (by simp; omega)
      rw [List.length_map] at w1 w2
      simp only
      rw [w1, ok_bind, w2, ok_bind]
      rw [Csr.forRow_ofRows K re i hi _ _ (fun e (s : Int × Int) =>
        if isOther first last e.1 then .ok (s.1, s.2 + 1) else .ok (s.1 + 1, s.2))]
      · have key : ∀ (r : List (Int × α)) (a b : Int), r.foldlM (fun (s : Int × Int) e =>
            if isOther first last e.1 then (.ok (s.1, s.2 + 1) : Res _) else .ok (s.1 + 1, s.2)) (a, b)
            = .ok (a + (((ownRow first last r).length : Nat) : Int), b + (((otherRow first last r).length : Nat) : Int)) := by
          intro r
          induction r with
          | nil => intro a b; simp [ownRow, otherRow]
          | cons e r ih =>
            intro a b
            rw [List.foldlM_cons]
            by_cases h : isOther first last e.1 = true
            · rw [if_pos h, ok_bind, ih]
              simp [ownRow, otherRow, h]; omega
            · rw [if_neg h, ok_bind, ih]
              have h' : isOther first last e.1 = false := by simpa using h
              simp [ownRow, otherRow, h']; omega
        rw [key, ok_bind]
        refine ⟨_, rfl, ?_⟩
        rw [take_succ_flatten_length (re.map (ownRow first last)) i (by simpa using hi),
          take_succ_flatten_length (re.map (otherRow first last)) i (by simpa using hi)]
        simp only [List.getElem_map, Nat.cast_add]
      · intro m hm s
        rw [rd_indices_ofRows K re i m hi hm, ok_bind])
  rw [h1, h2, List.take_of_length_le (l := re.map (ownRow first last)) (by simp),
    List.take_of_length_le (l := re.map (otherRow first last)) (by simp)]

/-- The state of the second loop when the own entries `D` and the other entries `O` are stored. -/
def extAt [Zero α] (T Td To : Nat) (D O : List (Int × α)) : ExtState α :=
  ⟨padTo T 0 (O.map Prod.fst), (O.length : Int), padTo To 0 (O.map Prod.fst), padTo To 0 (O.map Prod.snd), (D.length : Int),
    padTo Td 0 (D.map Prod.fst), padTo Td 0 (D.map Prod.snd)⟩

theorem extFill_ok [Zero α] (first last : Int) {K : Int} (re : List (List (Int × α))) (T Td To : Nat)
    (hd : (re.map (ownRow first last)).flatten.length = Td) (ho : (re.map (otherRow first last)).flatten.length = To) (hT : To ≤ T) :
    extFill first last (re.length : Int) (Csr.ofRows K re) (extAt T Td To [] [])
      = .ok (extAt T Td To (re.map (ownRow first last)).flatten (re.map (otherRow first last)).flatten) := by
  unfold extFill
  have hrow : ∀ (r : List (Int × α)) (D O : List (Int × α)), D.length + (ownRow first last r).length ≤ Td →
      O.length + (otherRow first last r).length ≤ To →
      r.foldlM (fun (st : ExtState α) (e : Int × α) =>
        if isOther first last e.1 then do
          let temp ← wr st.temp st.cntOffd e.1
          let oj ← wr st.offdJ st.cntOffd e.1
          let od ← wr st.offdData st.cntOffd e.2
          .ok { st with temp := temp, offdJ := oj, offdData := od, cntOffd := st.cntOffd + 1 }
        else do
          let dj ← wr st.diagJ st.cntDiag (e.1 - first)
          let dd ← wr st.diagData st.cntDiag e.2
          .ok { st with diagJ := dj, diagData := dd, cntDiag := st.cntDiag + 1 }) (extAt T Td To D O)
        = (.ok (extAt T Td To (D ++ ownRow first last r) (O ++ otherRow first last r)) : Res _) := by
    intro r
    induction r with
    | nil => intro D O _ _; simp [ownRow, otherRow]
    | cons e r ih =>
      intro D O h1 h2
      rw [List.foldlM_cons]
      by_cases h : isOther first last e.1 = true
      · have e1 : otherRow first last (e :: r) = e :: otherRow first last r := by simp [otherRow, h]
        have e2 : ownRow first last (e :: r) = ownRow first last r := by simp [ownRow, h]
        rw [e2] at h1
        rw [e1, List.length_cons] at h2
        rw [if_pos h, e1, e2]
        have : O ++ e :: otherRow first last r = (O ++ [e]) ++ otherRow first last r := by simp
        rw [this, ← ih D (O ++ [e]) h1 (by simp; omega)]
        unfold extAt
        simp only
        rw [wr_padTo (by simp; omega) (by simp), ok_bind, wr_padTo (by simp; omega) (by simp), ok_bind,
          wr_padTo (by simp; omega) (by simp), ok_bind]
        simp
      · have h' : isOther first last e.1 = false := by simpa using h
        have e1 : otherRow first last (e :: r) = otherRow first last r := by simp [otherRow, h']
        have e2 : ownRow first last (e :: r) = (e.1 - first, e.2) :: ownRow first last r := by simp [ownRow, h']
        rw [e2, List.length_cons] at h1
        rw [e1] at h2
        rw [if_neg h, e1, e2]
        have : D ++ (e.1 - first, e.2) :: ownRow first last r = (D ++ [(e.1 - first, e.2)]) ++ ownRow first last r := by simp
        rw [this, ← ih (D ++ [(e.1 - first, e.2)]) O (by simp; omega) h2]
        unfold extAt
        simp only
        rw [wr_padTo (by simp; omega) (by simp), ok_bind, wr_padTo (by simp; omega) (by simp), ok_bind]
        simp
  have hle : ∀ (f : List (Int × α) → List (Int × α)) (i : Nat) (hi : i < re.length),
      ((re.map f).take i).flatten.length + (f re[i]).length ≤ (re.map f).flatten.length := by
    intro f i hi
    have h1 := take_succ_flatten_length (re.map f) i (by simpa using hi)
    simp only [List.getElem_map] at h1
    rw [← h1]
    have : (re.map f).flatten = ((re.map f).take (i + 1)).flatten ++ ((re.map f).drop (i + 1)).flatten := by
      rw [← List.flatten_append, List.take_append_drop]
    have := congrArg List.length this
    rw [List.length_append] at this
    omega
  obtain ⟨s, h1, h2⟩ := forUp_inv_nat (n := re.length) (f := fun i (st : ExtState α) => (Csr.ofRows K re).forRow i st (fun j st => do
    let c ← rd (Csr.ofRows K re).indices j
    let d ← rd (Csr.ofRows K re).data j
    if isOther first last c then
      let temp ← wr st.temp st.cntOffd c
      let oj ← wr st.offdJ st.cntOffd c
      let od ← wr st.offdData st.cntOffd d
      .ok { st with temp := temp, offdJ := oj, offdData := od, cntOffd := st.cntOffd + 1 }
    else
      let dj ← wr st.diagJ st.cntDiag (c - first)
      let dd ← wr st.diagData st.cntDiag d
      .ok { st with diagJ := dj, diagData := dd, cntDiag := st.cntDiag + 1 }))
    (fun i st => st = extAt T Td To ((re.map (ownRow first last)).take i).flatten ((re.map (otherRow first last)).take i).flatten)
    (s := extAt T Td To [] []) (by simp) (by
      rintro i st hi rfl
      refine ⟨_, ?_, rfl⟩
      rw [Csr.forRow_ofRows K re i hi _ _ (fun e (st : ExtState α) =>
        if isOther first last e.1 then do
          let temp ← wr st.temp st.cntOffd e.1
          let oj ← wr st.offdJ st.cntOffd e.1
          let od ← wr st.offdData st.cntOffd e.2
          .ok { st with temp := temp, offdJ := oj, offdData := od, cntOffd := st.cntOffd + 1 }
        else do
          let dj ← wr st.diagJ st.cntDiag (e.1 - first)
          let dd ← wr st.diagData st.cntDiag e.2
          .ok { st with diagJ := dj, diagData := dd, cntDiag := st.cntDiag + 1 })]
      · rw [hrow re[i] _ _ (by rw [← hd]; exact hle _ i hi) (by rw [← ho]; exact hle _ i hi)]
        rw [take_succ_eq (l := re.map (ownRow first last)) (by simpa using hi),
          take_succ_eq (l := re.map (otherRow first last)) (by simpa using hi)]
        simp only [List.flatten_append, List.getElem_map, List.flatten_cons, List.flatten_nil, List.append_nil]
      · intro m hm s
        rw [rd_indices_ofRows K re i m hi hm, ok_bind, rd_data_ofRows K re i m hi hm, ok_bind])
  rw [h1, h2, List.take_of_length_le (by simp), List.take_of_length_le (by simp)]

/-! ## The column map -/

/-- Ascending values without repetition. -/
def dedupFrom (v : Int) : List Int → List Int
  | [] => []
  | t :: l => if t > v then t :: dedupFrom t l else dedupFrom v l

theorem dedupFrom_length (v : Int) (l : List Int) : (dedupFrom v l).length ≤ l.length := by
  induction l generalizing v with
  | nil => simp [dedupFrom]
  | cons t l ih =>
    unfold dedupFrom
    split
    · simpa using ih t
    · exact (ih v).trans (by simp)

theorem dedupFrom_sorted (v : Int) (l : List Int) : (v :: dedupFrom v l).Pairwise (· < ·) := by
  induction l generalizing v with
  | nil => simp [dedupFrom]
  | cons t l ih =>
    unfold dedupFrom
    split
    · rename_i h
      have h1 := ih t
      rw [List.pairwise_cons] at h1 ⊢
      refine ⟨?_, ih t⟩
      intro x hx
      rcases List.mem_cons.mp hx with rfl | hx
      · omega
      · have := h1.1 x hx; omega
    · exact ih v

theorem mem_dedupFrom (v : Int) (l : List Int) (hl : (v :: l).Pairwise (· ≤ ·)) (x : Int) :
    x ∈ v :: dedupFrom v l ↔ x ∈ v :: l := by
  induction l generalizing v with
  | nil => simp [dedupFrom]
  | cons t l ih =>
    rw [List.pairwise_cons, List.pairwise_cons] at hl
    unfold dedupFrom
    split
    · have := ih t (List.pairwise_cons.mpr hl.2)
      rw [List.mem_cons, this]
      simp only [List.mem_cons]
    · rename_i h
      have ht := hl.1 t (by simp)
      have : t = v := by omega
      subst this
      rw [ih t (List.pairwise_cons.mpr hl.2)]
      simp

/-- The result of the in-place removal: the kept values come first. -/
theorem uniq_ok (v : Int) (l : List Int) :
    ∃ rest, uniq (v :: l) = .ok (((v :: dedupFrom v l).length : Int), (v :: dedupFrom v l) ++ rest) := by
  have h0 : rd (v :: l) 0 = .ok v := rfl
  unfold uniq
  rw [h0, ok_bind]
  have key : ∀ (l mid D : List Int) (w : Int) (k : Int), k = ((D.length + mid.length : Nat) : Int) → ∃ rest : Int × List Int,
      forUp k (((D ++ mid ++ l).length : Nat) : Int) ((D.length : Int), w, D ++ mid ++ l) (fun i st => do
        let t ← rd st.2.2 i
        if t > st.2.1 then
          let temp ← wr st.2.2 st.1 t
          .ok (st.1 + 1, t, temp)
        else .ok st) = (.ok (((D ++ dedupFrom w l).length : Int), rest.1, (D ++ dedupFrom w l) ++ rest.2) : Res (Int × Int × List Int)) := by
    intro l
    induction l with
    | nil =>
      intro mid D w k hk
      refine ⟨(w, mid), ?_⟩
      rw [forUp_nil (by simp at hk ⊢; omega)]
      simp [dedupFrom]
    | cons t l ih =>
      intro mid D w k hk
      rw [forUp_cons (by simp at hk ⊢; omega)]
      have hr : rd (D ++ mid ++ t :: l) k = .ok t := rd_at (by simp at hk ⊢; omega)
      simp only
      rw [hr, ok_bind]
      by_cases h : t > w
      · rw [if_pos h]
        have hw : ∃ mid', wr (D ++ mid ++ t :: l) (D.length : Int) t = .ok (D ++ [t] ++ mid' ++ l) ∧ mid'.length = mid.length := by
          cases mid with
          | nil => exact ⟨[], by simpa using wr_at (xs := D) (ys := l) (y := t) (v := t) rfl, rfl⟩
          | cons m mid =>
            refine ⟨mid ++ [t], ?_, by simp⟩
            have := wr_at (xs := D) (ys := mid ++ t :: l) (y := m) (v := t) (p := (D.length : Int)) rfl
            simpa using this
        obtain ⟨mid', hw1, hw2⟩ := hw
        rw [hw1, ok_bind, ok_bind]
        obtain ⟨rest, hr⟩ := ih mid' (D ++ [t]) t (k + 1) (by simp [hw2] at hk ⊢; omega)
        refine ⟨rest, ?_⟩
        have e1 : (((D ++ mid ++ t :: l).length : Nat) : Int) = (((D ++ [t] ++ mid' ++ l).length : Nat) : Int) := by simp [hw2]; omega
        have e2 : (D.length : Int) + 1 = ((D ++ [t]).length : Int) := by simp
        have e3 : dedupFrom w (t :: l) = t :: dedupFrom t l := by rw [dedupFrom, if_pos h]
        rw [e1, e2, hr, e3]
        simp
      · rw [if_neg h, ok_bind]
        obtain ⟨rest, hr⟩ := ih (mid ++ [t]) D w (k + 1) (by simp at hk ⊢; omega)
        refine ⟨rest, ?_⟩
        have e1 : D ++ mid ++ t :: l = D ++ (mid ++ [t]) ++ l := by simp
        have e3 : dedupFrom w (t :: l) = dedupFrom w l := by rw [dedupFrom, if_neg h]
        rw [e1, hr, e3]
  obtain ⟨rest, hk⟩ := key l [] [v] v 1 (by simp)
  refine ⟨rest.2, ?_⟩
  have e : [v] ++ [] ++ l = v :: l := by simp
  rw [e] at hk
  have e2 : ((([v] : List Int).length : Nat) : Int) = 1 := rfl
  rw [e2] at hk
  rw [hk, ok_bind]
  simp

theorem productMap_ok (srt : Csr.Sorter) (hs : IsSort srt) (cols mapB : List Int) :
    ∃ m, productMap srt (padTo (cols.length + mapB.length) 0 cols) (cols.length : Int) mapB = .ok m ∧ m.Pairwise (· < ·) ∧
      ∀ x, x ∈ m ↔ x ∈ cols ∨ x ∈ mapB := by
  unfold productMap
  by_cases h : cols = [] ∧ mapB = []
  · rw [h.1, h.2]
    exact ⟨[], by simp, by simp, by simp⟩
  · rw [if_pos (by
      by_contra hc
      simp only [not_or, not_not] at hc
      exact h ⟨List.length_eq_zero_iff.mp (by omega), List.length_eq_zero_iff.mp (by omega)⟩)]
    obtain ⟨t, h1, h2⟩ := forUp_inv_nat (n := mapB.length) (f := fun i temp => do
        let c ← rd mapB i
        wr temp ((cols.length : Int) + i) c)
      (fun i t => t = padTo (cols.length + mapB.length) 0 (cols ++ mapB.take i)) (s := padTo (cols.length + mapB.length) 0 cols)
      (by simp) (by
        rintro i t hi rfl
        refine ⟨_, ?_, rfl⟩
        rw [rd_nat hi, ok_bind, wr_padTo (by simp; omega) (by simp; omega), take_succ_eq hi, List.append_assoc])
    rw [h1, ok_bind, h2, List.take_length, padTo_full (by simp)]
    obtain ⟨p1, p2⟩ := hs (fun a => a) (cols ++ mapB)
    cases hsl : srt (fun a b => decide (a < b)) (cols ++ mapB) with
    | nil =>
      rw [hsl] at p1
      have := p1.length_eq
      rw [List.length_nil, List.length_append] at this
      exact absurd ⟨List.length_eq_zero_iff.mp (by omega), List.length_eq_zero_iff.mp (by omega)⟩ h
    | cons v l =>
      rw [hsl] at p1 p2
      obtain ⟨rest, hu⟩ := uniq_ok v l
      rw [hu, ok_bind]
      simp only
      rw [mkVec_nat, ok_bind]
      refine ⟨v :: dedupFrom v l, ?_, dedupFrom_sorted v l, ?_⟩
      · obtain ⟨t, k1, k2⟩ := forUp_inv_nat (n := (v :: dedupFrom v l).length) (f := fun i m => do
            let c ← rd ((v :: dedupFrom v l) ++ rest) i
            wr m i c)
          (fun i t => t = padTo (v :: dedupFrom v l).length 0 ((v :: dedupFrom v l).take i))
          (s := List.replicate (v :: dedupFrom v l).length 0) (by simp [padTo]) (by
            rintro i t hi rfl
            refine ⟨_, ?_, rfl⟩
            rw [rd_nat (by rw [List.length_append]; omega), ok_bind, List.getElem_append_left hi,
              wr_padTo (by rw [List.length_take]; omega) (by rw [List.length_take]; omega), take_succ_eq hi])
        rw [k1, k2, List.take_length, padTo_full rfl]
      · intro x
        rw [mem_dedupFrom v l p2, p1.mem_iff, List.mem_append]

theorem mapBToC_ok (mapC mapB : List Int) (hC : mapC.Pairwise (· < ·)) (hB : mapB.Pairwise (· < ·)) (hsub : ∀ x ∈ mapB, x ∈ mapC) :
    ∃ m, mapBToC mapC mapB = .ok m ∧ m.length = mapB.length ∧ (∀ x ∈ m, 0 ≤ x ∧ x < (mapC.length : Int)) ∧
      ∀ (k : Nat), k < mapB.length → vecAt mapC (vecAt m k) = vecAt mapB k := by
  unfold mapBToC
  by_cases h0 : mapB = []
  · subst h0
    exact ⟨[], by simp, rfl, by simp, by simp⟩
  · have hl : (mapB.length : Int) ≠ 0 := by
      intro h
      exact h0 (List.length_eq_zero_iff.mp (by omega))
    rw [if_pos hl, mkVec_nat, ok_bind]
    have hCm := List.pairwise_iff_getElem.mp hC
    have hBm := List.pairwise_iff_getElem.mp hB
    obtain ⟨⟨cnt, m⟩, h1, c, h2, h3, h4, h5, h6⟩ := forUp_inv_nat (n := mapC.length) (f := fun i (st : Int × List Int) =>
        if st.1 = (mapB.length : Int) then .ok st
        else do
          let c ← rd mapC i
          let b ← rd mapB st.1
          if c = b then
            let m ← wr st.2 st.1 i
            .ok (st.1 + 1, m)
          else .ok st)
      (fun i st => ∃ c : Nat, st.1 = (c : Int) ∧ c ≤ mapB.length ∧ st.2.length = mapB.length ∧
        (∀ k (hk : k < st.2.length), k < c → ∃ j : Nat, st.2[k] = (j : Int) ∧ ∃ hj : j < mapC.length, ∃ hb : k < mapB.length, mapC[j] = mapB[k]) ∧
        (∀ k (hk : k < mapB.length), c ≤ k → mapB[k] ∉ mapC.take i))
      (s := ((0 : Int), List.replicate mapB.length (0 : Int)))
      ⟨0, rfl, by omega, by simp, fun _ _ h => absurd h (by omega), fun k hk _ => by simp⟩ (by
        rintro i ⟨cnt, m⟩ hi ⟨c, a1, a2, a3, a4, a5⟩
        simp only at a1 a2 a3 a4 a5 ⊢
        subst a1
        by_cases hc : (c : Int) = (mapB.length : Int)
        · rw [if_pos hc]
          exact ⟨_, rfl, c, rfl, a2, a3, a4, fun k hk hck => by omega⟩
        · have hcl : c < mapB.length := by omega
          rw [if_neg hc, rd_nat hi, ok_bind, rd_nat hcl, ok_bind]
          have htake : ∀ x, x ∈ mapC.take (i + 1) ↔ x ∈ mapC.take i ∨ x = mapC[i] := by
            intro x
            rw [take_succ_eq hi, List.mem_append, List.mem_singleton]
          by_cases he : mapC[i] = mapB[c]
          · rw [if_pos he, wr_nat (by omega), ok_bind]
            refine ⟨_, rfl, c + 1, by push_cast; rfl, by omega, by simpa using a3, ?_, ?_⟩
            · intro k hk hkc
              simp only [List.length_set] at hk
              by_cases hkk : c = k
              · subst hkk
                exact ⟨i, by simp, hi, hcl, he⟩
              · obtain ⟨j, j1, j2⟩ := a4 k hk (by omega)
                exact ⟨j, by simp only [List.getElem_set]; rw [if_neg hkk]; exact j1, j2⟩
            · intro k hk hck
              rw [htake]
              rintro (h | h)
              · exact a5 k hk (by omega) h
              · have := hBm c k hcl hk (by omega)
                omega
          · rw [if_neg he]
            refine ⟨_, rfl, c, rfl, a2, a3, a4, ?_⟩
            intro k hk hck
            rw [htake]
            rintro (h | h)
            · exact a5 k hk hck h
            · have hne : c ≠ k := by rintro rfl; exact he h.symm
              have hlt := hBm c k hcl hk (by omega)
              obtain ⟨j, hj, hj2⟩ := List.getElem_of_mem (hsub _ (List.getElem_mem hcl))
              by_cases hji : j < i
              · exact a5 c hcl le_rfl (by rw [List.mem_take_iff_getElem]; exact ⟨j, by omega, hj2⟩)
              · rcases Nat.lt_or_ge i j with h' | h'
                · have := hCm i j hi hj h'
                  omega
                · have : j = i := by omega
                  subst this
                  omega)
    rw [h1, ok_bind]
    simp only at h2 h3 h4 h5 h6
    have hcm : c = mapB.length := by
      by_contra hne
      have := h6 c (by omega) le_rfl
      rw [List.take_length] at this
      exact this (hsub _ (List.getElem_mem _))
    subst hcm
    refine ⟨m, rfl, h4, ?_, ?_⟩
    · intro x hx
      obtain ⟨k, hk, rfl⟩ := List.getElem_of_mem hx
      obtain ⟨j, j1, j2, _⟩ := h5 k hk (by omega)
      rw [j1]
      omega
    · intro k hk
      obtain ⟨j, j1, j2, j3, j4⟩ := h5 k (by omega) hk
      rw [vecAt_nat m k (by omega), j1, vecAt_nat mapC j j2, vecAt_nat mapB k hk, j4]

/-! ## Putting the split together -/

theorem mapLoop (s : Int → Int) (X Y Z : List Int) :
    forUp (X.length : Int) ((X.length + Y.length : Nat) : Int) (X ++ Y ++ Z) (fun j oj => do
      let c ← rd oj j
      wr oj j (s c)) = .ok (X ++ Y.map s ++ Z) := by
  induction Y generalizing X with
  | nil => rw [forUp_nil (by simp)]; simp
  | cons y Y ih =>
    rw [forUp_cons (by simp)]
    have e : X ++ y :: Y ++ Z = X ++ y :: (Y ++ Z) := by simp
    rw [e, rd_at rfl, ok_bind, wr_at rfl, ok_bind]
    have := ih (X ++ [s y])
    have e1 : ((X ++ [s y]).length : Int) = (X.length : Int) + 1 := by simp
    have e2 : (((X ++ [s y]).length + Y.length : Nat) : Int) = ((X.length + (y :: Y).length : Nat) : Int) := by simp; omega
    rw [e1, e2] at this
    have e3 : X ++ s y :: (Y ++ Z) = X ++ [s y] ++ Y ++ Z := by simp
    rw [e3, this]
    simp

theorem remap_ok (s : Int → Int) (ro : List (List (Int × α))) :
    forUp 0 (ro.length : Int) (ro.flatten.map Prod.fst) (fun i oj => do
      let lo ← rd (ptrs ro) i
      let hi ← rd (ptrs ro) (i + 1)
      forUp lo hi oj (fun j oj => do
        let c ← rd oj j
        wr oj j (s c))) = .ok ((mapCols s ro).flatten.map Prod.fst) := by
  obtain ⟨t, h1, h2⟩ := forUp_inv_nat (n := ro.length) (f := fun i oj => do
      let lo ← rd (ptrs ro) i
      let hi ← rd (ptrs ro) (i + 1)
      forUp lo hi oj (fun j oj => do
        let c ← rd oj j
        wr oj j (s c)))
    (fun i t => t = ((ro.take i).flatten.map Prod.fst).map s ++ (ro.drop i).flatten.map Prod.fst) (s := ro.flatten.map Prod.fst)
    (by simp) (by
      rintro i t hi rfl
      refine ⟨_, ?_, rfl⟩
      rw [rd_ptrs ro i hi.le, ok_bind, rd_ptrs_succ ro i hi, ok_bind]
      have := mapLoop s (((ro.take i).flatten.map Prod.fst).map s) (ro[i].map Prod.fst) ((ro.drop (i + 1)).flatten.map Prod.fst)
      simp only [List.length_map] at this
      rw [List.drop_eq_getElem_cons hi, List.flatten_cons, List.map_append, ← List.append_assoc, this, take_succ_eq hi]
      simp only [List.flatten_append, List.map_append, List.flatten_cons, List.flatten_nil, List.append_nil])
  rw [h1, h2]
  simp [mapCols, List.map_flatten, Function.comp_def]

theorem mapCols_snd (s : Int → Int) (ro : List (List (Int × α))) : (mapCols s ro).flatten.map Prod.snd = ro.flatten.map Prod.snd := by
  simp [mapCols, List.map_flatten, Function.comp_def]

theorem mapCols_ptrs (s : Int → Int) (ro : List (List (Int × α))) : ptrs (mapCols s ro) = ptrs ro := by
  apply List.ext_getElem
  · simp [mapCols]
  · intro k h1 h2
    rw [getElem_ptrs, getElem_ptrs]
    simp [mapCols, ← List.map_take, Function.comp_def]

theorem splitExt_map [Zero α] (srt : Csr.Sorter) (hs : IsSort srt) (search : List Int → Int → Int) {A B : ParMat α} {K : Int}
    {re : List (List (Int × α))} (hn : A.offd.cols = re.length) {first : Int} (hf : rd B.colStarts 0 = .ok first) :
    ∃ mapC, splitExt srt search A B (Csr.ofRows K re) = .ok (Csr.ofRows B.diag.cols (re.map (ownRow first (first + B.diag.cols - 1))),
        Csr.ofRows (mapC.length : Int) (mapCols (search mapC) (re.map (otherRow first (first + B.diag.cols - 1)))), mapC) ∧
      productMap srt (padTo ((re.map (otherRow first (first + B.diag.cols - 1))).flatten.length + B.colMap.length) 0
        ((re.map (otherRow first (first + B.diag.cols - 1))).flatten.map Prod.fst)) (((re.map (otherRow first (first + B.diag.cols - 1))).flatten.length : Nat) : Int)
        B.colMap = .ok mapC ∧
      mapC.Pairwise (· < ·) ∧
      ∀ x, x ∈ mapC ↔ x ∈ (re.map (otherRow first (first + B.diag.cols - 1))).flatten.map Prod.fst ∨ x ∈ B.colMap := by
  generalize hlast : first + B.diag.cols - 1 = last
  obtain ⟨mapC, m1, m2, m3⟩ := productMap_ok srt hs ((re.map (otherRow first last)).flatten.map Prod.fst) B.colMap
  refine ⟨mapC, ?_, by rw [List.length_map] at m1; exact m1, m2, m3⟩
  unfold splitExt
  rw [hn, hf]
  simp only [ok_bind]
  rw [hlast]
  have q1 : mkVec ((re.length : Int) + 1) (0 : Int) = .ok (List.replicate (re.length + 1) 0) := by
    have := mkVec_nat (re.length + 1) (0 : Int); push_cast at this; exact this
  rw [q1, ok_bind, extSizes_ok, ok_bind]
  simp only
  have w1 := wr_ptrs_take (re.map (ownRow first last)) (k := re.length) (by simp)
  have w2 := wr_ptrs_take (re.map (otherRow first last)) (k := re.length) (by simp)
  rw [List.length_map, List.take_of_length_le (l := re.map (ownRow first last)) (by simp), List.take_of_length_le (i := re.length + 1) (by simp),
    padTo_full (D := ptrs _) (by simp)] at w1
  rw [List.length_map, List.take_of_length_le (l := re.map (otherRow first last)) (by simp), List.take_of_length_le (i := re.length + 1) (by simp),
    padTo_full (D := ptrs _) (by simp)] at w2
  rw [w1, ok_bind, w2, ok_bind, mkVec_nat, ok_bind, mkVec_nat, ok_bind, mkVec_nat, ok_bind, mkVec_nat, ok_bind]
  have q2 : mkVec ((((re.map (otherRow first last)).flatten.length : Nat) : Int) + (B.colMap.length : Int)) (0 : Int)
      = .ok (List.replicate ((re.map (otherRow first last)).flatten.length + B.colMap.length) 0) := by
    have := mkVec_nat ((re.map (otherRow first last)).flatten.length + B.colMap.length) (0 : Int)
    rw [Nat.cast_add] at this; exact this
  have r1 : ∀ rs : List (List (Int × α)), rd (ptrs rs) 0 = .ok 0 := by
    intro rs
    have := rd_ptrs rs 0 (by omega)
    simpa using this
  rw [q2, ok_bind, r1, ok_bind, r1, ok_bind]
  have hfill := extFill_ok first last (K := K) re ((re.map (otherRow first last)).flatten.length + B.colMap.length)
    (re.map (ownRow first last)).flatten.length (re.map (otherRow first last)).flatten.length rfl rfl (by omega)
  have e0 : extAt ((re.map (otherRow first last)).flatten.length + B.colMap.length) (re.map (ownRow first last)).flatten.length
      (re.map (otherRow first last)).flatten.length ([] : List (Int × α)) []
      = ⟨List.replicate ((re.map (otherRow first last)).flatten.length + B.colMap.length) 0, 0,
        List.replicate (re.map (otherRow first last)).flatten.length 0, List.replicate (re.map (otherRow first last)).flatten.length 0, 0,
        List.replicate (re.map (ownRow first last)).flatten.length 0, List.replicate (re.map (ownRow first last)).flatten.length 0⟩ := by
    simp [extAt, padTo, -List.length_flatten]
  rw [e0] at hfill
  rw [hfill, ok_bind]
  have m1' := m1
  rw [List.length_map] at m1'
  have e1 : (extAt ((re.map (otherRow first last)).flatten.length + B.colMap.length) (re.map (ownRow first last)).flatten.length
      (re.map (otherRow first last)).flatten.length (re.map (ownRow first last)).flatten (re.map (otherRow first last)).flatten).temp
      = padTo ((re.map (otherRow first last)).flatten.length + B.colMap.length) 0 ((re.map (otherRow first last)).flatten.map Prod.fst) := rfl
  rw [e1, m1', ok_bind]
  have e2 : (extAt ((re.map (otherRow first last)).flatten.length + B.colMap.length) (re.map (ownRow first last)).flatten.length
      (re.map (otherRow first last)).flatten.length (re.map (ownRow first last)).flatten (re.map (otherRow first last)).flatten).offdJ
      = (re.map (otherRow first last)).flatten.map Prod.fst := padTo_full (by rw [List.length_map])
  have hrm := remap_ok (search mapC) (re.map (otherRow first last))
  rw [List.length_map] at hrm
  rw [e2, hrm, ok_bind]
  simp only [extAt, Csr.ofRows, mapCols_ptrs, mapCols_snd, List.length_map]
  rw [padTo_full (by rw [List.length_map]), padTo_full (by rw [List.length_map]), padTo_full (by rw [List.length_map])]
  simp [mapCols]

theorem splitExt_ok [Zero α] (srt : Csr.Sorter) (hs : IsSort srt) (search : List Int → Int → Int) {A B : ParMat α} {K : Int}
    {re : List (List (Int × α))} (hn : A.offd.cols = re.length) {first : Int} (hf : rd B.colStarts 0 = .ok first) :
    ∃ mapC, splitExt srt search A B (Csr.ofRows K re) = .ok (Csr.ofRows B.diag.cols (re.map (ownRow first (first + B.diag.cols - 1))),
        Csr.ofRows (mapC.length : Int) (mapCols (search mapC) (re.map (otherRow first (first + B.diag.cols - 1)))), mapC) ∧
      mapC.Pairwise (· < ·) ∧
      ∀ x, x ∈ mapC ↔ x ∈ (re.map (otherRow first (first + B.diag.cols - 1))).flatten.map Prod.fst ∨ x ∈ B.colMap := by
  obtain ⟨mapC, h1, -, h2, h3⟩ := splitExt_map srt hs search (A := A) (B := B) (K := K) hn hf
  exact ⟨mapC, h1, h2, h3⟩

end Par
end Linalg
