import Verif.Model.ReleaseBlockOp
import Verif.Props.ReleaseView2
import Verif.Props.ReleaseLil
import Verif.Props.Block
import Verif.Proof.Width

/-! # C150: block operators without assertions -/

namespace Linalg
open Cpp

variable {α : Type}

theorem vecSetSize_debug (x : List α) (n : Int) (v : α) : Rel.vecSetSize .debug x n v = Vec.setSize x n v := by
  unfold Rel.vecSetSize Vec.setSize
  split
  · show (cassert (n ≥ 0) >>= fun _ => _) = (cassert (n ≥ 0) >>= fun _ => _)
    by_cases h : n ≥ 0
    · rw [cassert_true h, ok_bind, ok_bind, if_neg (by omega)]
    · rw [cassert_false h]
      rfl
  · rfl

theorem bopStore_debug (v out : List α) : Rel.bopStore .debug v out = (cassert (v.length = out.length) >>= fun _ => .ok v) := by
  show (cassert (v.length = out.length) >>= fun _ => _) = _
  by_cases h : v.length = out.length
  · rw [cassert_true h, ok_bind, ok_bind, if_pos (by omega), List.drop_eq_nil_of_le (by omega), List.append_nil]
  · rw [cassert_false h]
    rfl

/-- **C150.**  With assertions the functions are those of the other model. -/
theorem C150_debug :
    (∀ (B : BlockOp α) (i j : Int) (op : Op α), Rel.bopSet .debug B i j op = B.setBlock i j op) ∧
    (∀ [Zero α] [Add α] (B : BlockOp α) (x out : List α), Rel.bopMult .debug B x out = B.mult x out) ∧
    ∀ [Zero α] [Add α] (B : BlockOp α) (x out : List α), Rel.bopMultAT .debug B x out = B.multAT x out := by
  refine ⟨fun B i j op => ?_, fun B x out => ?_, fun B x out => ?_⟩
  · simp only [Rel.bopSet, Rel.bopFits, BlockOp.setBlock, bind_assoc]
  · unfold Rel.bopMult BlockOp.mult Rel.bopMultLoop
    simp only [bopStore_debug, vecSetSize_debug, bind_assoc, ok_bind]
    rfl
  · unfold Rel.bopMultAT BlockOp.multAT Rel.bopMultATLoop
    simp only [bopStore_debug, vecSetSize_debug, bind_assoc, ok_bind]
    rfl

theorem Refines.vecSetSize (x : List α) (n : Int) (v : α) : Refines (Rel.vecSetSize .debug x n v) (Rel.vecSetSize .release x n v) :=
  Refines.ite ((Refines.assert _).bind fun _ => Refines.refl _) (Refines.refl _)

theorem Refines.bopAddInto [Add α] (v : View) (m t : List α) : Refines (Rel.bopAddInto .debug v m t) (Rel.bopAddInto .release v m t) :=
  (Refines.assert _).bind fun _ => Refines.forUp fun _ _ => (Refines.get _ _ _).bind fun _ => (Refines.vrd _ _).bind fun _ => Refines.put _ _ _ _

theorem Refines.getBlock (v w : View) (o : List Int) (k : Int) (h : v.off = w.off) : Refines (Rel.getBlock .debug v o k) (Rel.getBlock .release w o k) := by
  unfold Rel.getBlock
  rw [h]
  exact (Refines.assert _).bind fun _ => (Refines.refl _).bind fun _ => (Refines.refl _).bind fun _ => (Refines.assert _).bind fun _ => Refines.refl _

theorem Refines.viewElems (v : View) (x : List α) (n : Nat) : Refines (BlockOp.viewElems v (x.take n)) (BlockOp.viewElems v x) := by
  intro a ha
  unfold BlockOp.viewElems Csr.slice at *
  split at ha
  · rename_i hc
    rw [List.length_take] at hc
    rw [if_pos (by omega), ← ha, List.drop_take, List.take_take, Nat.min_eq_left (by omega)]
  · cases ha

theorem Refines.bopMultLoop [Zero α] [Add α] (B : BlockOp α) (x : List α) (n : Nat) :
    Refines (Rel.bopMultLoop .debug B (x.take n)) (Rel.bopMultLoop .release B x) := by
  refine Refines.forUp fun i st => (Refines.getBlock _ _ _ _ rfl).bind fun v => (Refines.vecSetSize _ _ _).bind fun t => Refines.forUp fun j st => ?_
  refine (Refines.refl _).bind fun row => (Refines.refl _).bind fun op => ?_
  cases op with
  | none => exact Refines.refl _
  | some op =>
    exact (Refines.getBlock _ _ _ _ rfl).bind fun _ => (Refines.viewElems _ _ _).bind fun _ => (Refines.refl _).bind fun _ =>
      (Refines.bopAddInto _ _ _).bind fun _ => Refines.refl _

theorem Refines.bopMultATLoop [Zero α] [Add α] (B : BlockOp α) (x : List α) (n : Nat) :
    Refines (Rel.bopMultATLoop .debug B (x.take n)) (Rel.bopMultATLoop .release B x) := by
  refine Refines.forUp fun i st => (Refines.getBlock _ _ _ _ rfl).bind fun v => (Refines.vecSetSize _ _ _).bind fun t => Refines.forUp fun j st => ?_
  refine (Refines.refl _).bind fun row => (Refines.refl _).bind fun op => ?_
  cases op with
  | none => exact Refines.refl _
  | some op =>
    exact (Refines.getBlock _ _ _ _ rfl).bind fun _ => (Refines.viewElems _ _ _).bind fun _ => (Refines.refl _).bind fun _ =>
      (Refines.bopAddInto _ _ _).bind fun _ => Refines.refl _

/-- What a checked `Mult` went through. -/
theorem bopMult_parts [Zero α] [Add α] {B B' : BlockOp α} {x out y : List α} (h : B.mult x out = .ok (B', y)) :
    (x.length : Int) = B.cols ∧ (out.length : Int) = B.rows ∧ Rel.bopMultLoop .debug B x = .ok (y, B'.tmp) ∧ y.length = out.length ∧
      B' = { B with x := x, y := y, tmp := B'.tmp } := by
  rw [← C150_debug.2.1] at h
  unfold Rel.bopMult at h
  obtain ⟨_, h1, h⟩ := bind_eq_ok.mp h
  obtain ⟨_, h2, h⟩ := bind_eq_ok.mp h
  obtain ⟨st, h3, h⟩ := bind_eq_ok.mp h
  rw [bopStore_debug] at h
  obtain ⟨o, h4, h⟩ := bind_eq_ok.mp h
  obtain ⟨_, h5, h6⟩ := bind_eq_ok.mp h4
  have h5 := cassert_ok_iff.mp h5
  cases h6
  cases h
  exact ⟨cassert_ok_iff.mp h1, cassert_ok_iff.mp h2, h3, h5, rfl⟩

/-- What a checked `MultAT` went through. -/
theorem bopMultAT_parts [Zero α] [Add α] {B B' : BlockOp α} {x out y : List α} (h : B.multAT x out = .ok (B', y)) :
    (x.length : Int) = B.rows ∧ (out.length : Int) = B.cols ∧ Rel.bopMultATLoop .debug B x = .ok (y, B'.tmp) ∧ y.length = out.length ∧
      B' = { B with y := x, x := y, tmp := B'.tmp } := by
  rw [← C150_debug.2.2] at h
  unfold Rel.bopMultAT at h
  obtain ⟨_, h1, h⟩ := bind_eq_ok.mp h
  obtain ⟨_, h2, h⟩ := bind_eq_ok.mp h
  obtain ⟨st, h3, h⟩ := bind_eq_ok.mp h
  rw [bopStore_debug] at h
  obtain ⟨o, h4, h⟩ := bind_eq_ok.mp h
  obtain ⟨_, h5, h6⟩ := bind_eq_ok.mp h4
  have h5 := cassert_ok_iff.mp h5
  cases h6
  cases h
  exact ⟨cassert_ok_iff.mp h1, cassert_ok_iff.mp h2, h3, h5, rfl⟩

/-- **C150.**  Take an input at least as long as the operator has columns, whose leading part can be multiplied with assertions on.  Without assertions
`Mult` computes the same numbers from that part.  An output with room for the rows gets them in front and keeps its other elements; a shorter output is
written out of bounds.  The work vector takes the length of the whole input. -/
theorem C150_mult [Zero α] [Add α] (B B' : BlockOp α) (input y out₀ : List α) (h : B.mult (input.take B.cols.toNat) out₀ = .ok (B', y)) (output : List α) :
    (B.rows ≤ output.length → Rel.bopMult .release B input output = .ok ({ B' with x := input }, y ++ output.drop B.rows.toNat)) ∧
    (output.length < B.rows → Rel.bopMult .release B input output = .error .outOfBounds) := by
  obtain ⟨h1, h2, h3, h4, h5⟩ := bopMult_parts h
  have hl := Refines.bopMultLoop B input B.cols.toNat _ h3
  have e : Rel.bopMult .release B input output =
      (Rel.bopMultLoop .release B input >>= fun st => Rel.bopStore .release st.1 output >>= fun out => .ok ({ B with x := input, y := st.1, tmp := st.2 }, out)) := rfl
  rw [e, hl, ok_bind]
  constructor
  · intro ho
    have e2 : Rel.bopStore .release y output = .ok (y ++ output.drop y.length) := if_pos (by omega)
    rw [e2, ok_bind, h5, show y.length = B.rows.toNat by omega]
  · intro ho
    have e2 : Rel.bopStore .release y output = .error .outOfBounds := if_neg (by omega)
    rw [e2]
    rfl

/-- **C150.**  The same for `MultAT`. -/
theorem C150_multAT [Zero α] [Add α] (B B' : BlockOp α) (input y out₀ : List α) (h : B.multAT (input.take B.rows.toNat) out₀ = .ok (B', y)) (output : List α) :
    (B.cols ≤ output.length → Rel.bopMultAT .release B input output = .ok ({ B' with y := input }, y ++ output.drop B.cols.toNat)) ∧
    (output.length < B.cols → Rel.bopMultAT .release B input output = .error .outOfBounds) := by
  obtain ⟨h1, h2, h3, h4, h5⟩ := bopMultAT_parts h
  have hl := Refines.bopMultATLoop B input B.rows.toNat _ h3
  have e : Rel.bopMultAT .release B input output =
      (Rel.bopMultATLoop .release B input >>= fun st => Rel.bopStore .release st.1 output >>= fun out => .ok ({ B with y := input, x := st.1, tmp := st.2 }, out)) := rfl
  rw [e, hl, ok_bind]
  constructor
  · intro ho
    have e2 : Rel.bopStore .release y output = .ok (y ++ output.drop y.length) := if_pos (by omega)
    rw [e2, ok_bind, h5, show y.length = B.cols.toNat by omega]
  · intro ho
    have e2 : Rel.bopStore .release y output = .error .outOfBounds := if_neg (by omega)
    rw [e2]
    rfl

/-- **C150.**  A call that passes the assertions gives the same result when they are compiled away. -/
theorem C150_same :
    (∀ (B : BlockOp α) (i j : Int) (op : Op α), Refines (B.setBlock i j op) (Rel.bopSet .release B i j op) ∧
      Refines (Rel.bopGet .debug B i j) (Rel.bopGet .release B i j)) ∧
    ∀ [Zero α] [Add α] (B : BlockOp α) (x out : List α), Refines (B.mult x out) (Rel.bopMult .release B x out) ∧
      Refines (B.multAT x out) (Rel.bopMultAT .release B x out) := by
  refine ⟨fun B i j op => ⟨?_, ?_⟩, fun B x out => ⟨?_, ?_⟩⟩
  · rw [← C150_debug.1]
    exact Refines.bind (s := Rel.bopFits .release B i j op) (fun _ _ => rfl) fun _ => Refines.refl _
  · exact (Refines.assert _).bind fun _ => (Refines.assert _).bind fun _ => Refines.refl _
  · rintro ⟨B', y⟩ h
    obtain ⟨h1, h2, h3, h4, h5⟩ := bopMult_parts h
    have ht : x.take B.cols.toNat = x := List.take_of_length_le (by omega)
    rw [(C150_mult B B' x y out (by rw [ht]; exact h) out).1 (by omega), List.drop_eq_nil_of_le (by omega), List.append_nil, h5]
  · rintro ⟨B', y⟩ h
    obtain ⟨h1, h2, h3, h4, h5⟩ := bopMultAT_parts h
    have ht : x.take B.rows.toNat = x := List.take_of_length_le (by omega)
    rw [(C150_multAT B B' x y out (by rw [ht]; exact h) out).1 (by omega), List.drop_eq_nil_of_le (by omega), List.append_nil, h5]

/-- A loop that returns keeps what every step that returns keeps. -/
theorem forUp_keeps {σ : Type} {a b : Int} {s s' : σ} {f : Int → σ → Res σ} (P : σ → Prop) (hf : ∀ i s s', P s → f i s = .ok s' → P s') (h0 : P s)
    (h : forUp a b s f = .ok s') : P s' := by
  unfold Cpp.forUp at h
  generalize (b - a).toNat = n at h
  induction n generalizing a s with
  | zero => cases h; exact h0
  | succ n ih =>
    obtain ⟨t, ht, h⟩ := bind_eq_ok.mp (show (f a s >>= fun s' => forN f n (a + 1) s') = .ok s' from h)
    exact ih (hf _ _ _ h0 ht) h

theorem bopAddInto_length [Add α] {v : View} {m t w : List α} (h : Rel.bopAddInto .release v m t = .ok w) : w.length = m.length := by
  have h : forUp 0 v.size m _ = .ok w := h
  refine forUp_keeps (fun w : List α => w.length = m.length) ?_ rfl h
  intro i s s' hs e
  obtain ⟨_, _, e⟩ := bind_eq_ok.mp e
  obtain ⟨_, _, e⟩ := bind_eq_ok.mp e
  obtain ⟨-, -, rfl⟩ := wr_eq_ok (show wr _ _ _ = .ok s' from e)
  rw [List.length_set]
  exact hs

theorem bopMultLoop_length [Zero α] [Add α] {B : BlockOp α} {x : List α} {st : List α × List α} (h : Rel.bopMultLoop .release B x = .ok st) :
    st.1.length = B.y.length := by
  refine forUp_keeps (fun s : List α × List α => s.1.length = B.y.length) ?_ (by simp) h
  intro i s s' hs e
  obtain ⟨_, _, e⟩ := bind_eq_ok.mp e
  obtain ⟨_, _, e⟩ := bind_eq_ok.mp e
  refine forUp_keeps (fun s : List α × List α => s.1.length = B.y.length) (fun i s s' hs e => ?_) (by exact hs) e
  obtain ⟨_, _, e⟩ := bind_eq_ok.mp e
  obtain ⟨op, _, e⟩ := bind_eq_ok.mp e
  cases op with
  | none => cases e; exact hs
  | some op =>
    obtain ⟨_, _, e⟩ := bind_eq_ok.mp e
    obtain ⟨_, _, e⟩ := bind_eq_ok.mp e
    obtain ⟨_, _, e⟩ := bind_eq_ok.mp e
    obtain ⟨_, e', e⟩ := bind_eq_ok.mp e
    cases e
    exact (bopAddInto_length e').trans hs

theorem bopMultATLoop_length [Zero α] [Add α] {B : BlockOp α} {x : List α} {st : List α × List α} (h : Rel.bopMultATLoop .release B x = .ok st) :
    st.1.length = B.x.length := by
  refine forUp_keeps (fun s : List α × List α => s.1.length = B.x.length) ?_ (by simp) h
  intro i s s' hs e
  obtain ⟨_, _, e⟩ := bind_eq_ok.mp e
  obtain ⟨_, _, e⟩ := bind_eq_ok.mp e
  refine forUp_keeps (fun s : List α × List α => s.1.length = B.x.length) (fun i s s' hs e => ?_) (by exact hs) e
  obtain ⟨_, _, e⟩ := bind_eq_ok.mp e
  obtain ⟨op, _, e⟩ := bind_eq_ok.mp e
  cases op with
  | none => cases e; exact hs
  | some op =>
    obtain ⟨_, _, e⟩ := bind_eq_ok.mp e
    obtain ⟨_, _, e⟩ := bind_eq_ok.mp e
    obtain ⟨_, _, e⟩ := bind_eq_ok.mp e
    obtain ⟨_, e', e⟩ := bind_eq_ok.mp e
    cases e
    exact (bopAddInto_length e').trans hs

/-- **C150.**  The calls remember.  Without assertions, a `Mult` of a vector longer than the operator has columns leaves that length in the work vector, and then
no `MultAT` into an output of the right size returns normally; and the other way round. -/
theorem C150_history [Zero α] [Add α] (B B' : BlockOp α) (input output out : List α) :
    (Rel.bopMult .release B input output = .ok (B', out) → B.cols < input.length →
      ∀ x z r, (z.length : Int) = B'.cols → Rel.bopMultAT .release B' x z ≠ .ok r) ∧
    (Rel.bopMultAT .release B input output = .ok (B', out) → B.rows < input.length →
      ∀ x z r, (z.length : Int) = B'.rows → Rel.bopMult .release B' x z ≠ .ok r) := by
  refine ⟨fun h hl x z r hz e => ?_, fun h hl x z r hz e => ?_⟩
  · have hB : B'.x = input ∧ B'.cols = B.cols := by
      obtain ⟨_, _, h⟩ := bind_eq_ok.mp h
      obtain ⟨_, _, h⟩ := bind_eq_ok.mp h
      obtain ⟨_, _, h⟩ := bind_eq_ok.mp h
      obtain ⟨_, _, h⟩ := bind_eq_ok.mp h
      cases h
      exact ⟨rfl, rfl⟩
    obtain ⟨_, _, e⟩ := bind_eq_ok.mp e
    obtain ⟨_, _, e⟩ := bind_eq_ok.mp e
    obtain ⟨st, e1, e⟩ := bind_eq_ok.mp e
    obtain ⟨_, e2, _⟩ := bind_eq_ok.mp e
    have hs := bopMultATLoop_length e1
    rw [hB.1] at hs
    rw [show Rel.bopStore .release st.1 z = .error .outOfBounds from if_neg (by omega)] at e2
    cases e2
  · have hB : B'.y = input ∧ B'.rows = B.rows := by
      obtain ⟨_, _, h⟩ := bind_eq_ok.mp h
      obtain ⟨_, _, h⟩ := bind_eq_ok.mp h
      obtain ⟨_, _, h⟩ := bind_eq_ok.mp h
      obtain ⟨_, _, h⟩ := bind_eq_ok.mp h
      cases h
      exact ⟨rfl, rfl⟩
    obtain ⟨_, _, e⟩ := bind_eq_ok.mp e
    obtain ⟨_, _, e⟩ := bind_eq_ok.mp e
    obtain ⟨st, e1, e⟩ := bind_eq_ok.mp e
    obtain ⟨_, e2, _⟩ := bind_eq_ok.mp e
    have hs := bopMultLoop_length e1
    rw [hB.1] at hs
    rw [show Rel.bopStore .release st.1 z = .error .outOfBounds from if_neg (by omega)] at e2
    cases e2

/-- **C150.**  Without assertions `SetBlock` stores an operator of any size at a block that exists, changing nothing else, and `GetBlock` reads what is
there; at other positions memory is accessed out of bounds. -/
theorem C150_setBlock (B : BlockOp α) (h : B.WF) (op : Op α) (i j : Int) :
    ((0 ≤ i ∧ i < B.nI) ∧ (0 ≤ j ∧ j < B.nJ) → Rel.bopGet .release B i j = .ok (B.opAt i j) ∧
      ∃ bl, Rel.bopSet .release B i j op = .ok { B with blocks := bl } ∧
        Rel.bopGet .release { B with blocks := bl } i j = .ok (some op) ∧
        ∀ p q, ¬ (p = i ∧ q = j) → Rel.bopGet .release { B with blocks := bl } p q = Rel.bopGet .release B p q) ∧
    (¬ ((0 ≤ i ∧ i < B.nI) ∧ (0 ≤ j ∧ j < B.nJ)) → Rel.bopGet .release B i j = .error .outOfBounds ∧
      Rel.bopSet .release B i j op = .error .outOfBounds) := by
  have h1 := h.blocks_len
  have h2 := h.rowOff_ok.length_pos
  have h3 := h.colOff_ok.length_pos
  unfold BlockOp.nI BlockOp.nJ
  have eg : ∀ (B : BlockOp α) p q, Rel.bopGet .release B p q = (rd B.blocks p >>= fun row => rd row q) := fun _ _ _ => rfl
  have es : Rel.bopSet .release B i j op = (rd B.blocks i >>= fun row => wr row j (some op) >>= fun row => wr B.blocks i row >>= fun bl => .ok { B with blocks := bl }) := rfl
  constructor
  · rintro ⟨⟨i0, i1⟩, j0, j1⟩
    have hi : i.toNat < B.blocks.length := by omega
    have hrl := h.block_row_len _ (List.getElem_mem hi)
    constructor
    · rw [eg, rd_int i0 (by omega), ok_bind, rd_int j0 (by omega), BlockOp.opAt, if_pos ⟨i0, j0⟩]
      simp only [List.getD_eq_getElem?_getD, List.getElem?_eq_getElem hi, Option.getD_some]
      rw [List.getElem?_eq_getElem (by omega), Option.getD_some]
    · refine ⟨B.blocks.set i.toNat (B.blocks[i.toNat].set j.toNat (some op)), ?_, ?_, ?_⟩
      · rw [es, rd_int i0 (by omega), ok_bind, wr_int j0 (by omega), ok_bind, wr_int i0 (by omega), ok_bind]
      · rw [eg]
        dsimp only
        rw [rd_int i0 (by rw [List.length_set]; omega), ok_bind, List.getElem_set_self, rd_int j0 (by rw [List.length_set]; omega), List.getElem_set_self]
      · intro p q hpq
        rw [eg, eg]
        dsimp only
        by_cases hp : 0 ≤ p ∧ p < B.blocks.length
        · rw [rd_int hp.1 (by rw [List.length_set]; omega), rd_int hp.1 hp.2, ok_bind, ok_bind]
          by_cases hpi : p = i
          · subst hpi
            rw [List.getElem_set_self]
            by_cases hq : 0 ≤ q ∧ q < B.blocks[p.toNat].length
            · rw [rd_int hq.1 (by rw [List.length_set]; omega), rd_int hq.1 hq.2, List.getElem_set_ne (by omega)]
            · rw [rd_oob (by rw [List.length_set]; omega), rd_oob (by omega)]
          · rw [List.getElem_set_ne (by omega)]
        · rw [rd_oob (by rw [List.length_set]; omega), rd_oob (by omega)]
  · intro hn
    rw [eg, es]
    by_cases hi : 0 ≤ i ∧ i < B.blocks.length
    · have hrl := h.block_row_len _ (List.getElem_mem (show i.toNat < B.blocks.length by omega))
      rw [rd_int hi.1 hi.2, ok_bind, ok_bind, rd_oob (by omega), wr_oob (by omega)]
      exact ⟨rfl, rfl⟩
    · rw [rd_oob (by omega)]
      exact ⟨rfl, rfl⟩

/-- A loop that returns has made every step. -/
theorem forUp_made {σ : Type} {a b k : Int} {s s' : σ} {f : Int → σ → Res σ} (h : forUp a b s f = .ok s') (k0 : a ≤ k) (k1 : k < b) :
    ∃ t t', f k t = .ok t' := by
  unfold Cpp.forUp at h
  obtain ⟨n, hn⟩ : ∃ n, n = (b - a).toNat := ⟨_, rfl⟩
  rw [← hn] at h
  induction n generalizing a s with
  | zero => omega
  | succ n ih =>
    obtain ⟨t, ht, h⟩ := bind_eq_ok.mp (show (f a s >>= fun s' => forN f n (a + 1) s') = .ok s' from h)
    by_cases hk : k = a
    · exact ⟨s, t, hk ▸ ht⟩
    · exact ih (by omega) h (by omega)

/-- **C150.**  Without assertions, a `Mult` that returns had an input reaching to the end of every block of columns in which an operator is set, and a `MultAT` that
returns had one reaching to the end of every such block of rows: too short an input is read out of bounds. -/
theorem C150_short [Zero α] [Add α] (B : BlockOp α) (h : B.WF) (input output : List α) (r : BlockOp α × List α) {i j : Int} (op : Op α)
    (i0 : 0 ≤ i) (i1 : i < B.nI) (j0 : 0 ≤ j) (j1 : j < B.nJ) (ho : B.opAt i j = some op) :
    (Rel.bopMult .release B input output = .ok r → vecAt B.colOff (j + 1) ≤ input.length) ∧
    (Rel.bopMultAT .release B input output = .ok r → vecAt B.rowOff (i + 1) ≤ input.length) := by
  have hg := ((C150_setBlock B h op i j).1 ⟨⟨i0, i1⟩, j0, j1⟩).1
  rw [ho] at hg
  obtain ⟨row, g1, g2⟩ := bind_eq_ok.mp (show (rd B.blocks i >>= fun row => rd row j) = .ok (some op) from hg)
  have h2 := h.rowOff_ok.length_pos
  have h3 := h.colOff_ok.length_pos
  unfold BlockOp.nI at i1
  unfold BlockOp.nJ at j1
  have hv : ∀ (o : List Int) (k : Int) (w : List α), 0 ≤ k → k < (o.length : Int) - 1 → ∀ v xs, Rel.getBlock .release ⟨0, w.length⟩ o k = .ok v →
      BlockOp.viewElems v w = .ok xs → vecAt o (k + 1) ≤ w.length := by
    intro o k w k0 k1 v xs e1 e2
    have e1 : (rd o k >>= fun lo => rd o (k + 1) >>= fun hi => (Except.ok ⟨0 + lo, hi - lo⟩ : Res View)) = .ok v := e1
    rw [rd_vecAt _ k0 (by omega), ok_bind, rd_vecAt _ (by omega) (by omega), ok_bind] at e1
    cases e1
    unfold BlockOp.viewElems Csr.slice at e2
    split at e2
    · rename_i hc
      dsimp only at hc
      omega
    · cases e2
  constructor
  · intro e
    obtain ⟨_, _, e⟩ := bind_eq_ok.mp e
    obtain ⟨_, _, e⟩ := bind_eq_ok.mp e
    obtain ⟨_, e, _⟩ := bind_eq_ok.mp e
    obtain ⟨_, _, e⟩ := forUp_made e i0 i1
    obtain ⟨_, _, e⟩ := bind_eq_ok.mp e
    obtain ⟨_, _, e⟩ := bind_eq_ok.mp e
    obtain ⟨_, _, e⟩ := forUp_made e j0 j1
    unfold Rel.bopMultStep at e
    rw [g1, ok_bind, g2, ok_bind] at e
    obtain ⟨_, e1, e⟩ := bind_eq_ok.mp e
    obtain ⟨_, e2, _⟩ := bind_eq_ok.mp e
    exact hv _ _ _ j0 j1 _ _ e1 e2
  · intro e
    obtain ⟨_, _, e⟩ := bind_eq_ok.mp e
    obtain ⟨_, _, e⟩ := bind_eq_ok.mp e
    obtain ⟨_, e, _⟩ := bind_eq_ok.mp e
    obtain ⟨_, _, e⟩ := forUp_made e j0 j1
    obtain ⟨_, _, e⟩ := bind_eq_ok.mp e
    obtain ⟨_, _, e⟩ := bind_eq_ok.mp e
    obtain ⟨_, _, e⟩ := forUp_made e i0 i1
    unfold Rel.bopMultATStep at e
    rw [g1, ok_bind, g2, ok_bind] at e
    obtain ⟨_, e1, e⟩ := bind_eq_ok.mp e
    obtain ⟨_, e2, _⟩ := bind_eq_ok.mp e
    exact hv _ _ _ i0 i1 _ _ e1 e2

/-- A 3 by 2 operator with one block set: a longer input, a longer and a shorter output, and the transposed product afterwards. -/
example : ∃ B₀ B₁ B₂ B₃ : BlockOp Int, BlockOp.new [0, 1, 3] [0, 2] = .ok B₀ ∧
    B₀.setBlock 1 0 (Csr.toOp ⟨2, 2, [0, 1, 3], [1, 0, 1], [5, 6, 7]⟩) = .ok B₁ ∧
    B₁.mult ([1, 2, 3].take 2) [8, 8, 8] = .ok (B₂, [0, 10, 20]) ∧
    Rel.bopMult .release B₁ [1, 2, 3] [8, 8, 8, 4] = .ok (B₃, [0, 10, 20, 4]) ∧
    (Rel.bopMult .release B₁ [1, 2, 3] [8, 8]).map Prod.snd = .error .outOfBounds ∧
    (Rel.bopMult .release B₁ [1] [8, 8, 8]).map Prod.snd = .error .outOfBounds ∧
    (Rel.bopMultAT .release B₂ [1, 2, 3] [0, 0]).map Prod.snd = .ok [18, 31] ∧
    (Rel.bopMultAT .release B₃ [1, 2, 3] [0, 0]).map Prod.snd = .error .outOfBounds ∧
    B₁.setBlock 0 0 (Csr.toOp ⟨2, 2, [0, 1, 3], [1, 0, 1], [5, 6, 7]⟩) = .error .assertFail ∧
    ((Rel.bopSet .release B₁ 0 0 (Csr.toOp ⟨2, 2, [0, 1, 3], [1, 0, 1], [5, 6, 7]⟩)).map fun _ => ()) = .ok () :=
  ⟨_, _, _, _, rfl, rfl, rfl, rfl, rfl, rfl, rfl, rfl, rfl, rfl⟩

/-- A consistent operator with a set block meets the hypotheses of `C150_setBlock` and `C150_short`: the input must reach to position 2. -/
example : ∃ (B : BlockOp Int) (op : Op Int), B.WF ∧ 0 < B.nI ∧ 1 < B.nJ ∧ B.opAt 0 1 = some op ∧ vecAt B.colOff 2 = 2 := by
  obtain ⟨B₀, -, w, -, -, r, c, -⟩ := C41_new (R := Int) [0, 1] [0, 1, 2] (m := 1) (n := 2)
    (by decide) (by decide)
  obtain ⟨B₁, -, w1, -, -, r1, c1, o, -⟩ := C41_setBlock B₀ w (Csr.toOp ⟨1, 1, [0, 1], [0], [5]⟩) (i := 0) (j := 1) (by decide) (by unfold BlockOp.nI; rw [r]; decide)
    (by decide) (by unfold BlockOp.nJ; rw [c]; decide) (by rw [r]; decide) (by rw [c]; decide)
  exact ⟨B₁, _, w1, by unfold BlockOp.nI; rw [r1, r]; decide, by unfold BlockOp.nJ; rw [c1, c]; decide, o, by rw [c1, c]; decide⟩

end Linalg
