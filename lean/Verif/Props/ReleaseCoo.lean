import Verif.Model.ReleaseCoo
import Verif.Props.ReleaseDense
import Verif.Props.Lobpcg
import Verif.Props.ParProd

/-! # C151: adding lists to a CooMatrix without assertions -/

namespace Linalg
open Cpp

variable {α : Type}

/-- A matrix with more entries. -/
def Coo.plus (C : Coo α) (es : List (Int × Int × α)) : Coo α := { C with entries := C.entries ++ es }

theorem Coo.plus_plus (C : Coo α) (a b : List (Int × Int × α)) : (C.plus a).plus b = C.plus (a ++ b) := by
  simp [Coo.plus]

theorem Rel.cooAdd_release (C : Coo α) (i j : Int) (v : α) : Rel.cooAdd .release C i j v = .ok (C.plus [(i, j, v)]) := by
  obtain ⟨m, n, s, e⟩ := C
  cases s <;> rfl

/-- A loop that appends entries in its good rounds and fails in the others. -/
theorem coo_rounds (n : Nat) (good : Nat → Prop) (L : Nat → List (Int × Int × α)) (f : Int → Coo α → Res (Coo α)) (C : Coo α)
    (hg : ∀ k : Nat, k < n → good k → ∀ C, f k C = .ok (C.plus (L k))) (hb : ∀ k : Nat, k < n → ¬ good k → ∀ C, f k C = .error .outOfBounds) :
    ((∀ k, k < n → good k) → forUp 0 (n : Int) C f = .ok (C.plus ((List.range n).flatMap L))) ∧
    (¬ (∀ k, k < n → good k) → forUp 0 (n : Int) C f = .error .outOfBounds) := by
  constructor
  · intro h
    obtain ⟨s, e, hs⟩ := forUp_inv_nat (n := n) (f := f) (fun k s => s = C.plus ((List.range k).flatMap L)) (s := C) (by simp [Coo.plus]) (by
      intro k s hk hI
      refine ⟨_, hg k hk (h k hk) s, ?_⟩
      rw [hI, Coo.plus_plus, List.range_succ, List.flatMap_append]
      simp)
    rw [e, hs]
  · intro h
    push Not at h
    obtain ⟨k, hk, hk'⟩ := h
    refine forUp_fails (fun _ _ => True) (fun i => good i.toNat) .outOfBounds trivial ?_ ?_ ⟨k, by omega, by omega, by simpa using hk'⟩
    · intro i s i0 i1 _ gi
      have := hg i.toNat (by omega) gi s
      rw [show ((i.toNat : Nat) : Int) = i by omega] at this
      exact ⟨_, this, trivial⟩
    · intro i s i0 i1 _ gi
      have := hb i.toNat (by omega) gi s
      rw [show ((i.toNat : Nat) : Int) = i by omega] at this
      exact this

/-- A loop over a list of indices and a list of values. -/
theorem coo_list [Zero α] (ix : List Int) (vals : List α) (F : Int → α → Int × Int × α) (C : Coo α) (f : Int → Coo α → Res (Coo α))
    (hf : ∀ i C, f i C = (rd ix i >>= fun r => rd vals i >>= fun v => .ok (C.plus [F r v]))) :
    (ix.length ≤ vals.length → forUp 0 (ix.length : Int) C f = .ok (C.plus ((List.range ix.length).map fun k : Nat => F (vecAt ix k) (vecAt vals k)))) ∧
    (vals.length < ix.length → forUp 0 (ix.length : Int) C f = .error .outOfBounds) := by
  have h := coo_rounds ix.length (fun k => k < vals.length) (fun k : Nat => [F (vecAt ix k) (vecAt vals k)]) f C
    (fun k hk hv C => by rw [hf, rd_vecAt _ (by omega) (by omega), ok_bind, rd_vecAt _ (by omega) (by omega), ok_bind])
    (fun k hk hv C => by rw [hf, rd_vecAt _ (by omega) (by omega), ok_bind, rd_oob (by omega)]; rfl)
  refine ⟨fun hl => ?_, fun hl => h.2 fun hall => ?_⟩
  · rw [h.1 (fun k hk => by omega), List.map_eq_flatMap]
  · have := hall vals.length hl
    omega

/-- **C151.**  With assertions the functions are those of the other model. -/
theorem C151_debug :
    (∀ (C : Coo α) (m n : Int), Rel.cooSetSize .debug C m n = C.setSize m n) ∧
    (∀ (C : Coo α) (r c : List Int) (D : Dense α), Rel.cooAddBlock .debug C r c D = C.addBlock r c D) ∧
    (∀ [Mul α] (C : Coo α) (r c : List Int) (s : α) (D : Dense α), Rel.cooAddBlockScaled .debug C r c s D = C.addBlockScaled r c s D) ∧
    (∀ (C : Coo α) (l : List Int) (k : Int) (v : List α), Rel.cooAddCol .debug C l k v = C.addCol l k v ∧ Rel.cooAddRow .debug C k l v = C.addRow k l v) ∧
    (∀ [Mul α] (C : Coo α) (l : List Int) (k : Int) (s : α) (v : List α), Rel.cooAddColScaled .debug C l k s v = C.addColScaled l k s v ∧
      Rel.cooAddRowScaled .debug C k l s v = C.addRowScaled k l s v) ∧
    (∀ (C : Coo α) (r c : List Int) (v : List α), Rel.cooAddZip .debug C r c v = C.addZip r c v) ∧
    (∀ [Mul α] (C : Coo α) (r c : List Int) (s : α) (v : List α), Rel.cooAddZipScaled .debug C r c s v = C.addZipScaled r c s v) ∧
    ∀ (C : Coo α) (p q : List Int), Rel.cooPermuteRows .debug C p = C.permuteRows p ∧ Rel.cooPermuteCols .debug C q = C.permuteCols q ∧
      Rel.cooPermuteRowsCols .debug C p q = C.permuteRowsCols p q :=
  ⟨fun _ _ _ => rfl, fun _ _ _ _ => rfl, fun _ _ _ _ _ => rfl, fun _ _ _ _ => ⟨rfl, rfl⟩, fun _ _ _ _ _ => ⟨rfl, rfl⟩, fun _ _ _ _ => rfl,
    fun _ _ _ _ _ => rfl, fun _ _ _ => ⟨rfl, rfl, rfl⟩⟩

/-- **C151.**  Without assertions the lists of indices decide how many entries are added to one row or column; further values are ignored, missing ones are
read out of bounds. -/
theorem C151_line [Zero α] [Mul α] (C : Coo α) (l : List Int) (k : Int) (s : α) (v : List α) :
    (l.length ≤ v.length →
      Rel.cooAddCol .release C l k v = .ok { C with entries := C.entries ++ (List.range l.length).map fun n : Nat => (vecAt l n, k, vecAt v n) } ∧
      Rel.cooAddRow .release C k l v = .ok { C with entries := C.entries ++ (List.range l.length).map fun n : Nat => (k, vecAt l n, vecAt v n) } ∧
      Rel.cooAddColScaled .release C l k s v = .ok { C with entries := C.entries ++ (List.range l.length).map fun n : Nat => (vecAt l n, k, s * vecAt v n) } ∧
      Rel.cooAddRowScaled .release C k l s v = .ok { C with entries := C.entries ++ (List.range l.length).map fun n : Nat => (k, vecAt l n, s * vecAt v n) }) ∧
    (v.length < l.length →
      Rel.cooAddCol .release C l k v = .error .outOfBounds ∧ Rel.cooAddRow .release C k l v = .error .outOfBounds ∧
      Rel.cooAddColScaled .release C l k s v = .error .outOfBounds ∧ Rel.cooAddRowScaled .release C k l s v = .error .outOfBounds) := by
  have h1 := coo_list l v (fun r x => (r, k, x)) C (fun i C => rd l i >>= fun r => Rel.vrd .release v i >>= fun x => Rel.cooAdd .release C r k x)
    (fun i C => by simp only [Rel.cooAdd_release]; rfl)
  have h2 := coo_list l v (fun r x => (k, r, x)) C (fun i C => rd l i >>= fun r => Rel.vrd .release v i >>= fun x => Rel.cooAdd .release C k r x)
    (fun i C => by simp only [Rel.cooAdd_release]; rfl)
  have h3 := coo_list l v (fun r x => (r, k, s * x)) C (fun i C => rd l i >>= fun r => Rel.vrd .release v i >>= fun x => Rel.cooAdd .release C r k (s * x))
    (fun i C => by simp only [Rel.cooAdd_release]; rfl)
  have h4 := coo_list l v (fun r x => (k, r, s * x)) C (fun i C => rd l i >>= fun r => Rel.vrd .release v i >>= fun x => Rel.cooAdd .release C k r (s * x))
    (fun i C => by simp only [Rel.cooAdd_release]; rfl)
  exact ⟨fun h => ⟨h1.1 h, h2.1 h, h3.1 h, h4.1 h⟩, fun h => ⟨h1.2 h, h2.2 h, h3.2 h, h4.2 h⟩⟩

theorem coo_zip [Zero α] (r c : List Int) (vals : List α) (F : α → α) (C : Coo α) (f : Int → Coo α → Res (Coo α))
    (hf : ∀ i C, f i C = (rd r i >>= fun a => rd c i >>= fun b => rd vals i >>= fun v => .ok (C.plus [(a, b, F v)]))) :
    (c.length ≤ r.length ∧ c.length ≤ vals.length →
      forUp 0 (c.length : Int) C f = .ok (C.plus ((List.range c.length).map fun k : Nat => (vecAt r k, vecAt c k, F (vecAt vals k))))) ∧
    (¬ (c.length ≤ r.length ∧ c.length ≤ vals.length) → forUp 0 (c.length : Int) C f = .error .outOfBounds) := by
  have h := coo_rounds c.length (fun k => k < r.length ∧ k < vals.length) (fun k : Nat => [(vecAt r k, vecAt c k, F (vecAt vals k))]) f C
    (fun k hk hv C => by
      rw [hf, rd_vecAt _ (by omega) (by omega), ok_bind, rd_vecAt _ (by omega) (by omega), ok_bind, rd_vecAt _ (by omega) (by omega), ok_bind])
    (fun k hk hv C => by
      rw [hf]
      by_cases hr : k < r.length
      · rw [rd_vecAt _ (by omega) (by omega), ok_bind, rd_vecAt _ (by omega) (by omega), ok_bind, rd_oob (by omega)]
        rfl
      · rw [rd_oob (by omega)]
        rfl)
  refine ⟨fun hl => ?_, fun hl => h.2 fun hall => hl ?_⟩
  · rw [h.1 (fun k hk => by omega), List.map_eq_flatMap]
  · by_cases hc : c.length = 0
    · omega
    · have := hall (c.length - 1) (by omega)
      omega

/-- **C151.**  Without assertions the list of columns decides how many triples are added; longer lists of rows and values are cut, shorter ones are read out
of bounds. -/
theorem C151_zip [Zero α] [Mul α] (C : Coo α) (r c : List Int) (s : α) (v : List α) :
    (c.length ≤ r.length ∧ c.length ≤ v.length →
      Rel.cooAddZip .release C r c v = .ok { C with entries := C.entries ++ (List.range c.length).map fun n : Nat => (vecAt r n, vecAt c n, vecAt v n) } ∧
      Rel.cooAddZipScaled .release C r c s v =
        .ok { C with entries := C.entries ++ (List.range c.length).map fun n : Nat => (vecAt r n, vecAt c n, s * vecAt v n) }) ∧
    (¬ (c.length ≤ r.length ∧ c.length ≤ v.length) →
      Rel.cooAddZip .release C r c v = .error .outOfBounds ∧ Rel.cooAddZipScaled .release C r c s v = .error .outOfBounds) := by
  have h1 := coo_zip r c v (fun x => x) C
    (fun i C => rd r i >>= fun a => rd c i >>= fun b => rd v i >>= fun x => Rel.cooAdd .release C a b x) (fun i C => by simp only [Rel.cooAdd_release])
  have h2 := coo_zip r c v (fun x => s * x) C
    (fun i C => rd r i >>= fun a => rd c i >>= fun b => rd v i >>= fun x => Rel.cooAdd .release C a b (s * x)) (fun i C => by simp only [Rel.cooAdd_release])
  exact ⟨fun h => ⟨h1.1 h, h2.1 h⟩, fun h => ⟨h1.2 h, h2.2 h⟩⟩

theorem coo_block [Zero α] (r c : List Int) (D : Dense α) (hD : D.WF) (F : α → α) (C : Coo α) :
    (D.cols ≤ c.length ∧ (D.cols = 0 ∨ D.rows ≤ r.length) →
      (forUp 0 D.cols C fun j C => rd c j >>= fun b => forUp 0 D.rows C fun i C => rd r i >>= fun a => Rel.dget .release D i j >>= fun x =>
        Rel.cooAdd .release C a b (F x)) =
      .ok (C.plus ((List.range D.cols.toNat).flatMap fun j : Nat => (List.range D.rows.toNat).map fun i : Nat => (vecAt r i, vecAt c j, F (D.entry i j))))) ∧
    (¬ (D.cols ≤ c.length ∧ (D.cols = 0 ∨ D.rows ≤ r.length)) →
      (forUp 0 D.cols C fun j C => rd c j >>= fun b => forUp 0 D.rows C fun i C => rd r i >>= fun a => Rel.dget .release D i j >>= fun x =>
        Rel.cooAdd .release C a b (F x)) = .error .outOfBounds) := by
  have d1 := hD.rows_nonneg
  have d2 := hD.cols_nonneg
  have inner : ∀ (j : Nat) (b : Int) (C : Coo α), j < D.cols.toNat →
      (D.rows ≤ r.length → (forUp 0 D.rows C fun i C => rd r i >>= fun a => Rel.dget .release D i j >>= fun x => Rel.cooAdd .release C a b (F x)) =
        .ok (C.plus ((List.range D.rows.toNat).map fun i : Nat => (vecAt r i, b, F (D.entry i j))))) ∧
      (¬ D.rows ≤ r.length → (forUp 0 D.rows C fun i C => rd r i >>= fun a => Rel.dget .release D i j >>= fun x => Rel.cooAdd .release C a b (F x)) =
        .error .outOfBounds) := by
    intro j b C hj
    have h := coo_rounds D.rows.toNat (fun k => k < r.length) (fun i : Nat => [(vecAt r i, b, F (D.entry i j))])
      (fun i C => rd r i >>= fun a => Rel.dget .release D i j >>= fun x => Rel.cooAdd .release C a b (F x)) C
      (fun k hk hv C => by
        rw [rd_vecAt _ (by omega) (by omega), ok_bind, Rel.dget_ok hD _ (by omega) (by omega) (by omega) (by omega), ok_bind, Rel.cooAdd_release])
      (fun k hk hv C => by rw [rd_oob (by omega)]; rfl)
    rw [show ((D.rows.toNat : Nat) : Int) = D.rows by omega] at h
    refine ⟨fun hl => ?_, fun hl => h.2 fun hall => ?_⟩
    · rw [h.1 (fun k hk => by omega), List.map_eq_flatMap]
    · have := hall r.length (by omega)
      omega
  have h := coo_rounds D.cols.toNat (fun k => k < c.length ∧ D.rows ≤ r.length)
    (fun j : Nat => (List.range D.rows.toNat).map fun i : Nat => (vecAt r i, vecAt c j, F (D.entry i j)))
    (fun j C => rd c j >>= fun b => forUp 0 D.rows C fun i C => rd r i >>= fun a => Rel.dget .release D i j >>= fun x =>
        Rel.cooAdd .release C a b (F x)) C
    (fun k hk hv C => by rw [rd_vecAt _ (by omega) (by omega), ok_bind, (inner k _ C hk).1 hv.2])
    (fun k hk hv C => by
      by_cases hc : k < c.length
      · rw [rd_vecAt _ (by omega) (by omega), ok_bind, (inner k _ C hk).2 (by tauto)]
      · rw [rd_oob (by omega)]
        rfl)
  rw [show ((D.cols.toNat : Nat) : Int) = D.cols by omega] at h
  refine ⟨fun hl => h.1 fun k hk => by omega, fun hl => h.2 fun hall => hl ?_⟩
  by_cases hc : D.cols = 0
  · omega
  · have := hall (D.cols.toNat - 1) (by omega)
    omega

/-- **C151.**  Without assertions the size of the dense matrix decides what is added: all its elements, column by column, each at the row and column the lists name.
Longer lists are cut, a shorter list of columns is read out of bounds, and so is a shorter list of rows unless the matrix has no columns. -/
theorem C151_block [Zero α] [Mul α] (C : Coo α) (r c : List Int) (s : α) (D : Dense α) (hD : D.WF) :
    (D.cols ≤ c.length ∧ (D.cols = 0 ∨ D.rows ≤ r.length) →
      Rel.cooAddBlock .release C r c D = .ok { C with entries := (C.entries ++
        (List.range D.cols.toNat).flatMap (fun j : Nat => (List.range D.rows.toNat).map fun i : Nat => (vecAt r i, vecAt c j, D.entry i j))) } ∧
      Rel.cooAddBlockScaled .release C r c s D = .ok { C with entries := (C.entries ++
        (List.range D.cols.toNat).flatMap (fun j : Nat => (List.range D.rows.toNat).map fun i : Nat => (vecAt r i, vecAt c j, s * D.entry i j))) }) ∧
    (¬ (D.cols ≤ c.length ∧ (D.cols = 0 ∨ D.rows ≤ r.length)) →
      Rel.cooAddBlock .release C r c D = .error .outOfBounds ∧ Rel.cooAddBlockScaled .release C r c s D = .error .outOfBounds) := by
  have h1 := coo_block r c D hD (fun x => x) C
  have h2 := coo_block r c D hD (fun x => s * x) C
  exact ⟨fun h => ⟨h1.1 h, h2.1 h⟩, fun h => ⟨h1.2 h, h2.2 h⟩⟩

theorem coo_perm (C : Coo α) (good : Int × Int × α → Prop) (g : Int × Int × α → Res (Int × Int × α)) (w : Int × Int × α → Int × Int × α)
    (hg : ∀ e, good e → g e = .ok (w e)) (hb : ∀ e, ¬ good e → g e = .error .outOfBounds) :
    ((∀ e ∈ C.entries, good e) → (C.entries.mapM g >>= fun es => Except.ok { C with entries := es } : Res (Coo α)) =
      .ok { C with entries := C.entries.map w }) ∧
    (¬ (∀ e ∈ C.entries, good e) → (C.entries.mapM g >>= fun es => Except.ok { C with entries := es } : Res (Coo α)) = .error .outOfBounds) := by
  constructor
  · intro h
    rw [mapM_ok _ _ w (fun e he => hg e (h e he)), ok_bind]
  · intro h
    push Not at h
    obtain ⟨e, he, hn⟩ := h
    rw [Par.mapM_error _ _ (fun e _ => by
      by_cases h : good e
      · exact Or.inl ⟨_, hg e h⟩
      · exact Or.inr (hb e h)) e he (hb e hn)]
    rfl

/-- **C151.**  Without assertions a list of any length permutes the entries, provided it has an element for the row or column of every stored entry; otherwise it is
read out of bounds. -/
theorem C151_permute (C : Coo α) (p q : List Int) :
    ((∀ e ∈ C.entries, 0 ≤ e.1 ∧ e.1 < p.length) →
      Rel.cooPermuteRows .release C p = .ok { C with entries := C.entries.map fun e => (vecAt p e.1, e.2.1, e.2.2) }) ∧
    (¬ (∀ e ∈ C.entries, 0 ≤ e.1 ∧ e.1 < p.length) → Rel.cooPermuteRows .release C p = .error .outOfBounds) ∧
    ((∀ e ∈ C.entries, 0 ≤ e.2.1 ∧ e.2.1 < q.length) →
      Rel.cooPermuteCols .release C q = .ok { C with entries := C.entries.map fun e => (e.1, vecAt q e.2.1, e.2.2) }) ∧
    (¬ (∀ e ∈ C.entries, 0 ≤ e.2.1 ∧ e.2.1 < q.length) → Rel.cooPermuteCols .release C q = .error .outOfBounds) ∧
    ((∀ e ∈ C.entries, (0 ≤ e.1 ∧ e.1 < p.length) ∧ 0 ≤ e.2.1 ∧ e.2.1 < q.length) →
      Rel.cooPermuteRowsCols .release C p q = .ok { C with entries := C.entries.map fun e => (vecAt p e.1, vecAt q e.2.1, e.2.2) }) ∧
    (¬ (∀ e ∈ C.entries, (0 ≤ e.1 ∧ e.1 < p.length) ∧ 0 ≤ e.2.1 ∧ e.2.1 < q.length) →
      Rel.cooPermuteRowsCols .release C p q = .error .outOfBounds) := by
  have h1 := coo_perm C (fun e => 0 ≤ e.1 ∧ e.1 < p.length) (fun e => rd p e.1 >>= fun i => .ok (i, e.2.1, e.2.2)) (fun e => (vecAt p e.1, e.2.1, e.2.2))
    (fun e h => by rw [rd_vecAt _ h.1 h.2]; rfl) (fun e h => by rw [rd_oob (by omega)]; rfl)
  have h2 := coo_perm C (fun e => 0 ≤ e.2.1 ∧ e.2.1 < q.length) (fun e => rd q e.2.1 >>= fun j => .ok (e.1, j, e.2.2)) (fun e => (e.1, vecAt q e.2.1, e.2.2))
    (fun e h => by rw [rd_vecAt _ h.1 h.2]; rfl) (fun e h => by rw [rd_oob (by omega)]; rfl)
  have h3 := coo_perm C (fun e => (0 ≤ e.1 ∧ e.1 < p.length) ∧ 0 ≤ e.2.1 ∧ e.2.1 < q.length)
    (fun e => rd p e.1 >>= fun i => rd q e.2.1 >>= fun j => .ok (i, j, e.2.2)) (fun e => (vecAt p e.1, vecAt q e.2.1, e.2.2))
    (fun e h => by rw [rd_vecAt _ h.1.1 h.1.2, ok_bind, rd_vecAt _ h.2.1 h.2.2]; rfl)
    (fun e h => by
      by_cases hp : 0 ≤ e.1 ∧ e.1 < p.length
      · rw [rd_vecAt _ hp.1 hp.2, ok_bind, rd_oob (by omega)]
        rfl
      · rw [rd_oob (by omega)]
        rfl)
  exact ⟨h1.1, h1.2, h2.1, h2.2, h3.1, h3.2⟩

/-- **C151.**  A negative size aborts with assertions and is accepted without; sizes that are not negative are set in both builds. -/
theorem C151_setSize (C : Coo α) (m n : Int) :
    C.setSize m n = (if 0 ≤ m ∧ 0 ≤ n then Rel.cooSetSize .release C m n else .error .assertFail) ∧
    Rel.cooSetSize .release C m n = .ok { C with sizeSet := true, rows := m, cols := n } := by
  refine ⟨?_, rfl⟩
  unfold Coo.setSize
  by_cases hm : m ≥ 0
  · by_cases hn : n ≥ 0
    · rw [cassert_true hm, ok_bind, cassert_true hn, if_pos ⟨hm, hn⟩]
      rfl
    · rw [cassert_true hm, ok_bind, cassert_false hn, if_neg (by omega)]
      rfl
  · rw [cassert_false hm, if_neg (by omega)]
    rfl

theorem Refines.cooAdd (C : Coo α) (i j : Int) (v : α) : Refines (Rel.cooAdd .debug C i j v) (Rel.cooAdd .release C i j v) := by
  intro C' h
  rw [Rel.cooAdd_release]
  obtain ⟨_, _, h⟩ := bind_eq_ok.mp h
  obtain ⟨_, _, h⟩ := bind_eq_ok.mp h
  split at h
  · obtain ⟨_, _, h⟩ := bind_eq_ok.mp h
    obtain ⟨_, _, h⟩ := bind_eq_ok.mp h
    exact h
  · exact h

/-- **C151.**  A call that passes the assertions gives the same result when they are compiled away. -/
theorem C151_same [Mul α] (C : Coo α) (r c : List Int) (k : Int) (s : α) (v : List α) (D : Dense α) :
    Refines (C.addBlock r c D) (Rel.cooAddBlock .release C r c D) ∧ Refines (C.addBlockScaled r c s D) (Rel.cooAddBlockScaled .release C r c s D) ∧
    Refines (C.addCol r k v) (Rel.cooAddCol .release C r k v) ∧ Refines (C.addRow k r v) (Rel.cooAddRow .release C k r v) ∧
    Refines (C.addColScaled r k s v) (Rel.cooAddColScaled .release C r k s v) ∧ Refines (C.addRowScaled k r s v) (Rel.cooAddRowScaled .release C k r s v) ∧
    Refines (C.addZip r c v) (Rel.cooAddZip .release C r c v) ∧ Refines (C.addZipScaled r c s v) (Rel.cooAddZipScaled .release C r c s v) ∧
    Refines (C.permuteRows r) (Rel.cooPermuteRows .release C r) ∧ Refines (C.permuteCols c) (Rel.cooPermuteCols .release C c) ∧
    Refines (C.permuteRowsCols r c) (Rel.cooPermuteRowsCols .release C r c) := by
  refine ⟨?_, ?_, ?_, ?_, ?_, ?_, ?_, ?_, ?_, ?_, ?_⟩
  · exact (Refines.assert _).bind fun _ => (Refines.assert _).bind fun _ => Refines.forUp fun _ _ => (Refines.refl _).bind fun _ => Refines.forUp fun _ _ =>
      (Refines.refl _).bind fun _ => (Refines.dget _ _ _).bind fun _ => Refines.cooAdd _ _ _ _
  · exact (Refines.assert _).bind fun _ => (Refines.assert _).bind fun _ => Refines.forUp fun _ _ => (Refines.refl _).bind fun _ => Refines.forUp fun _ _ =>
      (Refines.refl _).bind fun _ => (Refines.dget _ _ _).bind fun _ => Refines.cooAdd _ _ _ _
  iterate 4
    · exact (Refines.assert _).bind fun _ => Refines.forUp fun _ _ => (Refines.refl _).bind fun _ => (Refines.vrd _ _).bind fun _ => Refines.cooAdd _ _ _ _
  iterate 2
    · exact (Refines.assert _).bind fun _ => (Refines.assert _).bind fun _ => Refines.forUp fun _ _ => (Refines.refl _).bind fun _ => (Refines.refl _).bind fun _ =>
        (Refines.refl _).bind fun _ => Refines.cooAdd _ _ _ _
  iterate 2
    · exact (Refines.assert _).bind fun _ => Refines.refl _
  · exact (Refines.assert _).bind fun _ => (Refines.assert _).bind fun _ => Refines.refl _

/-- Lists of different lengths: aborted with assertions, cut or read out of bounds without. -/
example : Coo.addCol (⟨2, 2, true, []⟩ : Coo Int) [0, 1] 1 [5, 6, 7] = .error .assertFail ∧
    Rel.cooAddCol .release (⟨2, 2, true, []⟩ : Coo Int) [0, 1] 1 [5, 6, 7] = .ok ⟨2, 2, true, [(0, 1, 5), (1, 1, 6)]⟩ ∧
    Rel.cooAddRowScaled .release (⟨2, 2, true, []⟩ : Coo Int) 1 [0, 1] 3 [5, 6] = .ok ⟨2, 2, true, [(1, 0, 15), (1, 1, 18)]⟩ ∧
    Rel.cooAddRow .release (⟨2, 2, true, []⟩ : Coo Int) 1 [0, 1] [5] = .error .outOfBounds ∧
    Rel.cooAddZip .release (⟨2, 2, true, []⟩ : Coo Int) [0, 1] [1] [5, 6] = .ok ⟨2, 2, true, [(0, 1, 5)]⟩ ∧
    Rel.cooAddBlock .release (⟨2, 2, true, []⟩ : Coo Int) [0, 7, 4] [1, 0] ⟨2, 1, [5, 6]⟩ = .ok ⟨2, 2, true, [(0, 1, 5), (7, 1, 6)]⟩ ∧
    Rel.cooAddBlock .release (⟨2, 2, true, []⟩ : Coo Int) [0] [1, 0] ⟨2, 1, [5, 6]⟩ = .error .outOfBounds ∧
    Rel.cooPermuteRows .release (⟨2, 2, true, [(0, 1, 5)]⟩ : Coo Int) [3] = .ok ⟨2, 2, true, [(3, 1, 5)]⟩ ∧
    Rel.cooPermuteCols .release (⟨2, 2, true, [(0, 1, 5)]⟩ : Coo Int) [3] = .error .outOfBounds := by decide

end Linalg
