import Verif.Props.Print

/-!
# C110, continued: fields, ties, and block matrices printed as dense ones
-/

namespace Linalg
open Cpp Io Print

variable {α : Type}

/-- **C110** What a field is: spaces before the text, or after it for a left-adjusted stream, no more than the width asks for. -/
theorem C110_field (left : Bool) (width : Int) (t : Text) :
    ∃ k : Nat, pad left width t = (if left then t ++ List.replicate k ' ' else List.replicate k ' ' ++ t) ∧
      ((pad left width t).length : Int) = max width t.length := by
  refine ⟨(width - t.length).toNat, by unfold pad; split <;> rfl, ?_⟩
  unfold pad
  split <;> simp only [List.length_append, List.length_replicate] <;> push_cast <;> omega

example : pad false 4 "ab".toList = "  ab".toList ∧ pad true 4 "ab".toList = "ab  ".toList ∧ pad false 1 "ab".toList = "ab".toList := by decide +kernel

/-- **C110** The number shown is the nearest one with that many digits after the point; between two that are equally near, the one whose last digit is even. -/
theorem C110_nearest (q : ℚ) (hq : 0 ≤ q) :
    (∀ m : Nat, |q - roundEven q| ≤ |q - m|) ∧ ((∃ m : Nat, m ≠ roundEven q ∧ |q - m| = |q - roundEven q|) → roundEven q % 2 = 0) := by
  have h0 : (0 : Int) ≤ ⌊q⌋ := Int.floor_nonneg.2 hq
  obtain ⟨n, hn⟩ := Int.eq_ofNat_of_zero_le h0
  have e1 : (n : ℚ) ≤ q := by have := Int.floor_le q; rw [hn] at this; exact_mod_cast this
  have e2 : q < n + 1 := by have := Int.lt_floor_add_one q; rw [hn] at this; exact_mod_cast this
  have cast : ∀ m : Nat, m ≤ n ∨ n + 1 ≤ m := fun m => by omega
  have c1 : ∀ m : Nat, m ≤ n → (m : ℚ) ≤ n := fun m h => by exact_mod_cast h
  have c2 : ∀ m : Nat, n + 1 ≤ m → (n : ℚ) + 1 ≤ m := fun m h => by exact_mod_cast h
  have c3 : ∀ m : Nat, m < n → (m : ℚ) + 1 ≤ n := fun m h => by exact_mod_cast h
  have c4 : ∀ m : Nat, n + 1 < m → (n : ℚ) + 2 ≤ m := fun m h => by exact_mod_cast h
  have a1 : |q - n| = q - n := abs_of_nonneg (by linarith)
  have a2 : |q - ((n + 1 : Nat) : ℚ)| = n + 1 - q := by
    push_cast
    rw [abs_of_nonpos (by linarith)]; ring
  have b1 : ∀ m : Nat, m ≤ n → |q - m| = q - m := fun m h => abs_of_nonneg (by linarith [c1 m h])
  have b2 : ∀ m : Nat, n + 1 ≤ m → |q - m| = m - q := fun m h => by
    rw [abs_of_nonpos (by linarith [c2 m h])]; ring
  have er : roundEven q = if q - n < 1 / 2 then n else if 1 / 2 < q - n then n + 1 else if n % 2 = 0 then n else n + 1 := by
    simp only [roundEven, hn, Int.toNat_natCast]
  by_cases r1 : q - n < 1 / 2
  · rw [er, if_pos r1, a1]
    constructor
    · intro m
      rcases cast m with h | h
      · rw [b1 m h]; linarith [c1 m h]
      · rw [b2 m h]; linarith [c2 m h]
    · rintro ⟨m, hm, h⟩
      exfalso
      rcases cast m with h' | h'
      · rw [b1 m h'] at h; linarith [c3 m (by omega)]
      · rw [b2 m h'] at h; linarith [c2 m h']
  · rw [er, if_neg r1]
    by_cases r2 : 1 / 2 < q - n
    · rw [if_pos r2, a2]
      constructor
      · intro m
        rcases cast m with h | h
        · rw [b1 m h]; linarith [c1 m h]
        · rw [b2 m h]; linarith [c2 m h]
      · rintro ⟨m, hm, h⟩
        exfalso
        rcases cast m with h' | h'
        · rw [b1 m h'] at h; linarith [c1 m h']
        · rw [b2 m h'] at h; linarith [c4 m (by omega)]
    · rw [if_neg r2]
      by_cases r3 : n % 2 = 0
      · rw [if_pos r3, a1]
        refine ⟨fun m => ?_, fun _ => r3⟩
        rcases cast m with h | h
        · rw [b1 m h]; linarith [c1 m h]
        · rw [b2 m h]; linarith [c2 m h]
      · rw [if_neg r3, a2]
        refine ⟨fun m => ?_, fun _ => by omega⟩
        rcases cast m with h | h
        · rw [b1 m h]; linarith [c1 m h]
        · rw [b2 m h]; linarith [c2 m h]

example : roundEven (5 / 2) = 2 ∧ roundEven (7 / 2) = 4 ∧ roundEven (8 / 3) = 3 := by decide +kernel

/-- In a row of the combined matrix, the entries with a column of block column `J` are those of the block. -/
theorem BlockMat.WF.filter_brow {B : BlockMat α} (h : B.WF) {I J i j : Int} (I0 : 0 ≤ I) (I1 : I < B.nI) (J0 : 0 ≤ J) (J1 : J < B.nJ)
    (j0 : 0 ≤ j) (j1 : j < vecAt B.colOff (J + 1) - vecAt B.colOff J) :
    ((B.brow I i).filter (fun e => e.1 = vecAt B.colOff J + j)).map Prod.snd = (((B.blk I J).row i).filter (fun e => e.1 = j)).map Prod.snd := by
  have hshift : ∀ K, ((((B.blk I K).row i).map (fun e => (vecAt B.colOff K + e.1, e.2))).filter (fun e => e.1 = vecAt B.colOff J + j)).map Prod.snd
      = if K = J then (((B.blk I J).row i).filter (fun e => e.1 = j)).map Prod.snd else
        ((((B.blk I K).row i).map (fun e => (vecAt B.colOff K + e.1, e.2))).filter (fun e => e.1 = vecAt B.colOff J + j)).map Prod.snd := by
    intro K
    split
    · rename_i hK; subst hK
      rw [List.filter_map, List.map_map]
      congr 1
      apply List.filter_congr
      intro e _
      simp
    · rfl
  have hzero : ∀ K, 0 ≤ K → K < B.nJ → K ≠ J →
      (((B.blk I K).row i).map (fun e => (vecAt B.colOff K + e.1, e.2))).filter (fun e => e.1 = vecAt B.colOff J + j) = [] := by
    intro K K0 K1 hne
    rw [List.filter_eq_nil_iff]
    intro e he heq
    obtain ⟨e', he', rfl⟩ := List.mem_map.mp he
    have hok := Csr.mem_row_ok (h.blk_wf I K) he'
    simp only [decide_eq_true_eq] at heq
    rcases h.block_size I K I0 I1 K0 K1 with hx | hx
    · rw [hx] at hok
      have : (Csr.empty : Csr α).cols = 0 := rfl
      omega
    · apply hne
      unfold BlockMat.nJ at K1 J1
      exact h.colOff_ok.unique (p := vecAt B.colOff J + j) K0 K1 J0 J1 (by omega) (by omega)
  unfold BlockMat.brow
  have hJ : J ∈ iota B.nJ.toNat := mem_iota.2 ⟨J0, by omega⟩
  have hnd : (iota B.nJ.toNat).Nodup := by
    unfold iota
    exact List.Nodup.map (fun a b h => by simpa using h) List.nodup_range
  have hmem : ∀ K ∈ iota B.nJ.toNat, 0 ≤ K ∧ K < B.nJ := fun K hK => by have := mem_iota.1 hK; omega
  generalize iota B.nJ.toNat = l at hJ hnd hmem
  induction l with
  | nil => cases hJ
  | cons K l ih =>
    rw [List.flatMap_cons, List.filter_append, List.map_append]
    by_cases hK : K = J
    · subst hK
      have hrest : (l.flatMap (fun j_1 => ((B.blk I j_1).row i).map (fun e => (vecAt B.colOff j_1 + e.1, e.2)))).filter
          (fun e => e.1 = vecAt B.colOff K + j) = [] := by
        rw [List.filter_flatMap, List.flatMap_eq_nil_iff]
        intro K' hK'
        have := hmem K' (by simp [hK'])
        exact hzero K' this.1 this.2 (fun e => (List.nodup_cons.1 hnd).1 (e ▸ hK'))
      rw [hrest, hshift K, if_pos rfl]
      simp
    · have := hmem K (by simp)
      rw [hzero K this.1 this.2 hK]
      simp only [List.map_nil, List.nil_append]
      exact ih (by rcases List.mem_cons.1 hJ with h | h; exact absurd h.symm hK; exact h) (List.nodup_cons.1 hnd).2 (fun K hK => hmem K (by simp [hK]))

/-- **C110** `PrintDense` of a block matrix shows, in one rectangle, for each position of each block the value stored last in it, and zero for blocks that
were not set. -/
theorem C110_blockDense [Zero α] (F : Show α) (B : BlockMat α) (hB : B.WF) (label : Text) (out : OStream) :
    ∃ f : Int → Int → α,
      B.printDense F label out = .ok (out.wrote (out.field (label ++ '\n' :: lines ((List.range B.rows.toNat).map (fun i : Nat =>
        (List.range B.cols.toNat).flatMap (fun j : Nat => pad false 8 (F (denseFlags 4) (f i j)))) ++ [[]])))) ∧
      ∀ I J i j, 0 ≤ I → I < B.nI → 0 ≤ J → J < B.nJ → 0 ≤ i → i < vecAt B.rowOff (I + 1) - vecAt B.rowOff I →
        0 ≤ j → j < vecAt B.colOff (J + 1) - vecAt B.colOff J → f (vecAt B.rowOff I + i) (vecAt B.colOff J + j) = (B.blk I J).lastAt i j := by
  have hr := hB.rowOff_ok.size_nonneg
  have hwf : (Csr.ofRows B.cols B.rowsL).WF := Csr.wf_ofRows hB.colOff_ok.size_nonneg hB.rowsL_ok
  have hrows : (Csr.ofRows B.cols B.rowsL).rows = B.rows := by simp [Csr.ofRows, BlockMat.length_rowsL]; omega
  refine ⟨(Csr.ofRows B.cols B.rowsL).lastAt, ?_, ?_⟩
  · unfold BlockMat.printDense
    rw [hB.combine_eq, ok_bind, C110_printDense F _ hwf, hrows]
    rfl
  · intro I J i j I0 I1 J0 J1 i0 i1 j0 j1
    have hI1 := I1
    unfold BlockMat.nI at hI1
    have a := hB.rowOff_ok.nonneg I0 (by omega)
    have b := hB.rowOff_ok.le_last (show 0 ≤ I + 1 by omega) (by omega)
    have hk : (vecAt B.rowOff I + i).toNat < B.rowsL.length := by rw [BlockMat.length_rowsL]; omega
    have e2 := hB.rowsL_getD I0 I1 i0 i1
    rw [List.getD_eq_getElem?_getD, List.getElem?_eq_getElem hk] at e2
    simp only [Option.getD_some] at e2
    have e3 := Csr.row_ofRows B.cols B.rowsL (vecAt B.rowOff I + i).toNat hk
    rw [show (((vecAt B.rowOff I + i).toNat : Nat) : Int) = vecAt B.rowOff I + i by omega, e2] at e3
    unfold Csr.lastAt
    rw [e3, hB.filter_brow I0 I1 J0 J1 j0 j1]

example : ({ rows := 2, cols := 2, rowOff := [0, 1, 2], colOff := [0, 1, 2], blocks := [[⟨1, 1, [0, 2], [0, 0], [5, 6]⟩, Csr.empty], [Csr.empty, ⟨1, 1, [0, 1], [0], [1/2]⟩]] } : BlockMat ℚ).printDense
    (ratShow (fun _ _ => [])) "B".toList OStream.new = .ok ⟨"B\n  6.0000  0.0000\n  0.0000  0.5000\n\n".toList, 0, Flags.new⟩ := by decide +kernel

end Linalg
