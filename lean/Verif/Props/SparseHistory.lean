import Verif.Props.SparseMore
import Verif.Props.SparseUpdate
import Verif.Props.SparseSort
import Verif.Props.SparseSub
import Verif.Props.SparseMult
import Verif.Props.SparseTranspose

/-!
# Histories of SparseMatrix operations (C16)

A program holds a growing list of matrices (its variables).  A step either appends a newly constructed matrix or
overwrites one matrix in place.
-/

namespace Linalg
open Cpp

variable {R : Type}

/-- The operations a history may contain; `a`, `b` are positions of matrices in the program's store. -/
inductive SpOp (R : Type)
  | newZero (rows cols : Int)
  | newDiag (d : List R)
  | newArrays (indptr indices : List Int) (data : List R) (rows cols : Int)
  | copy (a : Nat)
  | transpose (a : Nat)
  | mult (a b : Nat) (marker : List Int)
  | subMatrix (a : Nat) (rows cols : List Int)
  | sortIndices (a : Nat)
  | eliminateZeros (a : Nat) (tol : R)
  | eliminateRow (a : Nat) (i : Int)
  | eliminateCol (a : Nat) (j : Int)
  | eliminateRowCol (a : Nat) (i : Int)
  | eliminateColMarker (a : Nat) (marker : List Bool)
  | eliminateRowColMarker (a : Nat) (marker : List Bool)
  | scaleRows (a : Nat) (d : List R)
  | scaleCols (a : Nat) (d : List R)
  | inverseScaleRows (a : Nat) (d : List R)
  | inverseScaleCols (a : Nat) (d : List R)
  | permuteCols (a : Nat) (perm : List Int)
  | scale (a : Nat) (s : R)
  | divScale (a : Nat) (s : R)
  | fill (a : Nat) (s : R)
  | addDiag (a : Nat) (d : List R)
  | addDiagVal (a : Nat) (v : R)

namespace SpOp

/-- Overwrite matrix `a` of the store. -/
def inPlace (st : List (Csr R)) (a : Nat) (f : Csr R → Res (Csr R)) : Res (List (Csr R)) := do
  let A ← rd st (a : Int)
  let B ← f A
  wr st (a : Int) B

/-- Append a matrix computed from matrix `a` of the store. -/
def append (st : List (Csr R)) (a : Nat) (f : Csr R → Res (Csr R)) : Res (List (Csr R)) := do
  let A ← rd st (a : Int)
  let B ← f A
  .ok (st ++ [B])

/-- One step of the program. -/
def run [Field R] [LinearOrder R] (srt : Csr.Sorter) (st : List (Csr R)) : SpOp R → Res (List (Csr R))
  | newZero r c => do let B ← Csr.zero r c; .ok (st ++ [B])
  | newDiag d => .ok (st ++ [Csr.ofDiag d])
  | newArrays p ix dt r c => do let B ← Csr.ofArrays p ix dt r c; .ok (st ++ [B])
  | copy a => append st a (fun A => .ok A)
  | transpose a => append st a (fun A => A.transpose)
  | mult a b marker => do
    let B ← rd st (b : Int)
    append st a (fun A => A.multSparseMarker B marker)
  | subMatrix a rows cols => append st a (fun A => A.getSubMatrix rows cols)
  | sortIndices a => inPlace st a (fun A => A.sortIndices srt)
  | eliminateZeros a tol => inPlace st a (fun A => A.eliminateZeros tol)
  | eliminateRow a i => inPlace st a (fun A => A.eliminateRow i)
  | eliminateCol a j => inPlace st a (fun A => A.eliminateCol j)
  | eliminateRowCol a i => inPlace st a (fun A => A.eliminateRowCol i)
  | eliminateColMarker a m => inPlace st a (fun A => A.eliminateColMarker m)
  | eliminateRowColMarker a m => inPlace st a (fun A => A.eliminateRowColMarker m)
  | scaleRows a d => inPlace st a (fun A => A.scaleRows d)
  | scaleCols a d => inPlace st a (fun A => A.scaleCols d)
  | inverseScaleRows a d => inPlace st a (fun A => A.inverseScaleRows d)
  | inverseScaleCols a d => inPlace st a (fun A => A.inverseScaleCols d)
  | permuteCols a p => inPlace st a (fun A => A.permuteCols p)
  | scale a s => inPlace st a (fun A => .ok (A.scale s))
  | divScale a s => inPlace st a (fun A => A.divScale s)
  | fill a s => inPlace st a (fun A => A.fillVal s)
  | addDiag a d => inPlace st a (fun A => A.addDiag d)
  | addDiagVal a v => inPlace st a (fun A => A.addDiagVal v)

/-- What the caller has to respect, in terms of the shapes `(rows, cols)` of the matrices in the store. -/
def admissible [Zero R] (sh : Nat → Option (Int × Int)) : SpOp R → Prop
  | newZero r c => 0 ≤ r ∧ 0 ≤ c
  | newDiag _ => True
  | newArrays p ix dt r c => (⟨r, c, p, ix, dt⟩ : Csr R).WF
  | copy a | transpose a | sortIndices a | eliminateZeros a _ | scale a _ => ∃ s, sh a = some s
  | mult a b _ => ∃ s t, sh a = some s ∧ sh b = some t ∧ t.1 = s.2
  | subMatrix a rows cols => ∃ s, sh a = some s ∧ (∀ r ∈ rows, 0 ≤ r ∧ r < s.1) ∧ cols.Nodup ∧
      ∀ c ∈ cols, 0 ≤ c ∧ c < s.2
  | eliminateRow a i => ∃ s, sh a = some s ∧ 0 ≤ i ∧ i < s.1
  | eliminateCol a j => ∃ s, sh a = some s ∧ 0 ≤ j ∧ j < s.2
  | eliminateRowCol a i => ∃ s, sh a = some s ∧ 0 ≤ i ∧ i < s.1 ∧ i < s.2
  | eliminateColMarker a m => ∃ s, sh a = some s ∧ s.2 ≤ m.length
  | eliminateRowColMarker a m => ∃ s, sh a = some s ∧ s.1 = s.2 ∧ s.2 ≤ m.length
  | scaleRows a d => ∃ s, sh a = some s ∧ (d.length : Int) = s.1
  | scaleCols a d => ∃ s, sh a = some s ∧ (d.length : Int) = s.2
  | inverseScaleRows a d => ∃ s, sh a = some s ∧ (d.length : Int) = s.1 ∧ ∀ x ∈ d, x ≠ 0
  | inverseScaleCols a d => ∃ s, sh a = some s ∧ (d.length : Int) = s.2 ∧ ∀ x ∈ d, x ≠ 0
  | permuteCols a p => ∃ s, sh a = some s ∧ (p.length : Int) = s.2 ∧ ∀ c ∈ p, 0 ≤ c ∧ c < s.2
  | divScale a s | fill a s => s ≠ 0 ∧ ∃ t, sh a = some t
  | addDiag a d => ∃ s, sh a = some s ∧ s.1 = s.2 ∧ s.1 ≤ d.length
  | addDiagVal a _ => ∃ s, sh a = some s ∧ s.1 = s.2

/-- The shapes of the matrices in the store. -/
def shapes (st : List (Csr R)) (a : Nat) : Option (Int × Int) := (st[a]?).map (fun A => (A.rows, A.cols))

/-- A whole history. -/
def runAll [Field R] [LinearOrder R] (srt : Csr.Sorter) : List (SpOp R) → List (Csr R) → Res (List (Csr R))
  | [], st => .ok st
  | op :: ops, st => do
    let st ← run srt st op
    runAll srt ops st

/-- Every call of the history is admissible in the state in which it is made. -/
def AdmissibleHistory [Field R] [LinearOrder R] (srt : Csr.Sorter) : List (SpOp R) → List (Csr R) → Prop
  | [], _ => True
  | op :: ops, st => op.admissible (shapes st) ∧
    ∀ st', run srt st op = .ok st' → AdmissibleHistory srt ops st'

theorem shapes_some {st : List (Csr R)} {a : Nat} {s : Int × Int} (h : shapes st a = some s) :
    ∃ A, rd st (a : Int) = .ok A ∧ A ∈ st ∧ a < st.length ∧ A.rows = s.1 ∧ A.cols = s.2 := by
  unfold shapes at h
  obtain ⟨A, h1, h2⟩ := Option.map_eq_some_iff.mp h
  obtain ⟨hlt, h3⟩ := List.getElem?_eq_some_iff.mp h1
  refine ⟨A, ?_, List.mem_of_getElem? h1, hlt, by rw [← h2], by rw [← h2]⟩
  rw [rd_nat hlt, h3]

theorem inPlace_ok {st : List (Csr R)} (hst : ∀ A ∈ st, A.WF) {a : Nat} {A B : Csr R}
    {f : Csr R → Res (Csr R)} (hA : rd st (a : Int) = .ok A) (ha : a < st.length) (hf : f A = .ok B)
    (hB : B.WF) : ∃ st', inPlace st a f = .ok st' ∧ ∀ A ∈ st', A.WF := by
  refine ⟨st.set a B, ?_, ?_⟩
  · unfold inPlace
    rw [hA, ok_bind, hf, ok_bind, wr_nat ha]
  · intro X hX
    rcases List.mem_or_eq_of_mem_set hX with h | h
    · exact hst X h
    · exact h ▸ hB

theorem append_wf {st : List (Csr R)} (hst : ∀ A ∈ st, A.WF) {B : Csr R} (hB : B.WF) :
    ∀ A ∈ st ++ [B], A.WF := by
  intro X hX
  rcases List.mem_append.mp hX with h | h
  · exact hst X h
  · exact List.mem_singleton.mp h ▸ hB

theorem append_ok {st : List (Csr R)} (hst : ∀ A ∈ st, A.WF) {a : Nat} {A B : Csr R}
    {f : Csr R → Res (Csr R)} (hA : rd st (a : Int) = .ok A) (hf : f A = .ok B)
    (hB : B.WF) : ∃ st', append st a f = .ok st' ∧ ∀ A ∈ st', A.WF := by
  refine ⟨st ++ [B], ?_, append_wf hst hB⟩
  unfold append
  rw [hA, ok_bind, hf, ok_bind]

end SpOp

open SpOp

/-- **C16**, one step: an admissible operation on a store of well-formed matrices returns normally and leaves only
well-formed matrices. -/
theorem C16_step [Field R] [LinearOrder R] (srt : Csr.Sorter) (hs : IsSort srt) (st : List (Csr R))
    (hst : ∀ A ∈ st, A.WF) (op : SpOp R) (h : op.admissible (shapes st)) :
    ∃ st', op.run srt st = .ok st' ∧ ∀ A ∈ st', A.WF := by
  cases op with
  | newZero r c =>
    obtain ⟨-, ⟨Z, h1, h2, -⟩, -⟩ := C11_other_constructors r c h.1 h.2 ([] : List R)
    exact ⟨st ++ [Z], by simp only [run]; rw [h1, ok_bind], append_wf hst h2⟩
  | newDiag d =>
    obtain ⟨-, -, h3⟩ := C11_other_constructors 0 0 le_rfl le_rfl d
    exact ⟨_, rfl, append_wf hst h3⟩
  | newArrays p ix dt r c =>
    refine ⟨st ++ [⟨r, c, p, ix, dt⟩], ?_, append_wf hst (B := ⟨r, c, p, ix, dt⟩) h⟩
    simp only [run]
    have := C11_constructor_accepts_wf (⟨r, c, p, ix, dt⟩ : Csr R) h
    simp only at this
    rw [this, ok_bind]
  | copy a =>
    obtain ⟨s, hs⟩ := h
    obtain ⟨A, hA, hm, -, -, -⟩ := shapes_some hs
    exact append_ok hst hA rfl (hst A hm)
  | transpose a =>
    obtain ⟨s, hs⟩ := h
    obtain ⟨A, hA, hm, -, -, -⟩ := shapes_some hs
    obtain ⟨B, h1, h2, -⟩ := C03_transpose A (hst A hm)
    exact append_ok hst hA h1 h2
  | mult a b marker =>
    obtain ⟨s, t, hs, ht, e⟩ := h
    obtain ⟨A, hA, hm, -, e1, e2⟩ := shapes_some hs
    obtain ⟨B, hB, hmB, -, e3, e4⟩ := shapes_some ht
    obtain ⟨P, h1, h2, -⟩ := C04_mult_marker A B (hst A hm) (hst B hmB) (by omega) marker
    simp only [run]
    rw [hB, ok_bind]
    exact append_ok hst hA h1 h2
  | subMatrix a rows cols =>
    obtain ⟨s, hs, a1, a2, a3⟩ := h
    obtain ⟨A, hA, hm, -, e1, e2⟩ := shapes_some hs
    obtain ⟨S, h1, h2, -⟩ := C07_getSubMatrix_coef A (hst A hm) rows cols (by rw [e1]; exact a1) a2
      (by rw [e2]; exact a3)
    exact append_ok hst hA h1 h2
  | sortIndices a =>
    obtain ⟨s, hsh⟩ := h
    obtain ⟨A, hA, hm, hlt, -, -⟩ := shapes_some hsh
    obtain ⟨B, h1, h2, -⟩ := C05_sortIndices srt hs A (hst A hm)
    exact inPlace_ok hst hA hlt h1 h2
  | eliminateZeros a tol =>
    obtain ⟨s, hsh⟩ := h
    obtain ⟨A, hA, hm, hlt, -, -⟩ := shapes_some hsh
    obtain ⟨B, h1, h2, -⟩ := C08_eliminateZeros A (hst A hm) tol
    exact inPlace_ok hst hA hlt h1 h2
  | eliminateRow a i =>
    obtain ⟨s, hsh, a1, a2⟩ := h
    obtain ⟨A, hA, hm, hlt, e1, e2⟩ := shapes_some hsh
    obtain ⟨B, h1, h2, -⟩ := C09_eliminateRow A (hst A hm) i a1 (by omega)
    exact inPlace_ok hst hA hlt h1 h2
  | eliminateCol a i =>
    obtain ⟨s, hsh, a1, a2⟩ := h
    obtain ⟨A, hA, hm, hlt, e1, e2⟩ := shapes_some hsh
    obtain ⟨B, h1, h2, -⟩ := C09_eliminateCol A (hst A hm) i a1 (by omega)
    exact inPlace_ok hst hA hlt h1 h2
  | eliminateRowCol a i =>
    obtain ⟨s, hsh, a1, a2, a3⟩ := h
    obtain ⟨A, hA, hm, hlt, e1, e2⟩ := shapes_some hsh
    obtain ⟨B, h1, h2, -⟩ := C09_eliminateRowCol A (hst A hm) i a1 (by omega) (by omega)
    exact inPlace_ok hst hA hlt h1 h2
  | eliminateColMarker a m =>
    obtain ⟨s, hsh, a1⟩ := h
    obtain ⟨A, hA, hm, hlt, e1, e2⟩ := shapes_some hsh
    obtain ⟨B, h1, h2, -⟩ := C09_eliminateColMarker A (hst A hm) m (by omega)
    exact inPlace_ok hst hA hlt h1 h2
  | eliminateRowColMarker a m =>
    obtain ⟨s, hsh, a1, a2⟩ := h
    obtain ⟨A, hA, hm, hlt, e1, e2⟩ := shapes_some hsh
    obtain ⟨B, h1, h2, -⟩ := C09_eliminateRowColMarker A (hst A hm) m (by omega) (by omega)
    exact inPlace_ok hst hA hlt h1 h2
  | scaleRows a d =>
    obtain ⟨s, hsh, a1⟩ := h
    obtain ⟨A, hA, hm, hlt, e1, e2⟩ := shapes_some hsh
    obtain ⟨B, h1, h2, -⟩ := C12_scaleRows A (hst A hm) d (by omega)
    exact inPlace_ok hst hA hlt h1 h2
  | scaleCols a d =>
    obtain ⟨s, hsh, a1⟩ := h
    obtain ⟨A, hA, hm, hlt, e1, e2⟩ := shapes_some hsh
    obtain ⟨B, h1, h2, -⟩ := C12_scaleCols A (hst A hm) d (by omega)
    exact inPlace_ok hst hA hlt h1 h2
  | inverseScaleRows a d =>
    obtain ⟨s, hsh, a1, a2⟩ := h
    obtain ⟨A, hA, hm, hlt, e1, e2⟩ := shapes_some hsh
    obtain ⟨B, h1, h2, -⟩ := C12_inverseScaleRows A (hst A hm) d (by omega) a2
    exact inPlace_ok hst hA hlt h1 h2
  | inverseScaleCols a d =>
    obtain ⟨s, hsh, a1, a2⟩ := h
    obtain ⟨A, hA, hm, hlt, e1, e2⟩ := shapes_some hsh
    obtain ⟨B, h1, h2, -⟩ := C12_inverseScaleCols A (hst A hm) d (by omega) a2
    exact inPlace_ok hst hA hlt h1 h2
  | permuteCols a p =>
    obtain ⟨s, hsh, a1, a2⟩ := h
    obtain ⟨A, hA, hm, hlt, e1, e2⟩ := shapes_some hsh
    obtain ⟨B, h1, h2, -⟩ := C13_permuteCols A (hst A hm) p (by omega) (by rw [e2]; exact a2)
    exact inPlace_ok hst hA hlt h1 h2
  | scale a s =>
    obtain ⟨t, hsh⟩ := h
    obtain ⟨A, hA, hm, hlt, e1, e2⟩ := shapes_some hsh
    exact inPlace_ok hst hA hlt rfl (C15_scale A (hst A hm) s).1
  | divScale a s =>
    obtain ⟨hne, t, hsh⟩ := h
    obtain ⟨A, hA, hm, hlt, e1, e2⟩ := shapes_some hsh
    obtain ⟨B, h1, h2, -⟩ := (C15_divScale A (hst A hm) s).2 hne
    exact inPlace_ok hst hA hlt h1 h2
  | fill a s =>
    obtain ⟨hne, t, hsh⟩ := h
    obtain ⟨A, hA, hm, hlt, e1, e2⟩ := shapes_some hsh
    obtain ⟨B, h1, h2, -⟩ := (C15_fill A (hst A hm) s).2 hne
    exact inPlace_ok hst hA hlt h1 h2
  | addDiag a d =>
    obtain ⟨s, hsh, a1, a2⟩ := h
    obtain ⟨A, hA, hm, hlt, e1, e2⟩ := shapes_some hsh
    obtain ⟨B, h1, h2, -⟩ := C10_addDiag A (hst A hm) (by omega) d (by omega)
    exact inPlace_ok hst hA hlt h1 h2
  | addDiagVal a v =>
    obtain ⟨s, hsh, a1⟩ := h
    obtain ⟨A, hA, hm, hlt, e1, e2⟩ := shapes_some hsh
    obtain ⟨B, h1, h2, -⟩ := C10_addDiagVal A (hst A hm) (by omega) v
    exact inPlace_ok hst hA hlt h1 h2

/-- **C16.**  Every finite history of admissible operations, starting from well-formed matrices, runs to the end
without failed assertion or out-of-range access and ends with well-formed matrices only. -/
theorem C16_history [Field R] [LinearOrder R] (srt : Csr.Sorter) (hs : IsSort srt) (ops : List (SpOp R))
    (st : List (Csr R)) (hst : ∀ A ∈ st, A.WF) (h : AdmissibleHistory srt ops st) :
    ∃ st', runAll srt ops st = .ok st' ∧ ∀ A ∈ st', A.WF := by
  induction ops generalizing st with
  | nil => exact ⟨st, rfl, hst⟩
  | cons op ops ih =>
    obtain ⟨st1, h1, h2⟩ := C16_step srt hs st hst op h.1
    obtain ⟨st2, h3, h4⟩ := ih st1 h2 (h.2 st1 h1)
    exact ⟨st2, by simp only [runAll]; rw [h1, ok_bind, h3], h4⟩

/-- A concrete admissible history: build a diagonal matrix, transpose it, extract, eliminate, multiply. -/
example : AdmissibleHistory (R := Rat) (fun lt l => l.mergeSort (fun a b => ! lt b a))
    [.newDiag [1, 2, 3], .transpose 0, .subMatrix 1 [2, 0] [0, 2], .eliminateCol 2 0, .mult 2 2 [5]] [] := by
  refine ⟨trivial, fun s h => ?_⟩
  obtain rfl := Except.ok.inj h
  refine ⟨⟨_, rfl⟩, fun s h => ?_⟩
  have e1 : SpOp.run (R := Rat) (fun lt l => l.mergeSort (fun a b => ! lt b a)) [Csr.ofDiag [1, 2, 3]] (.transpose 0)
      = .ok [Csr.ofDiag [1, 2, 3], Csr.ofDiag [1, 2, 3]] := by decide
  have e2 : [] ++ [Csr.ofDiag [(1 : Rat), 2, 3]] = [Csr.ofDiag [1, 2, 3]] := rfl
  rw [e2, e1] at h
  obtain rfl := Except.ok.inj h
  refine ⟨⟨_, rfl, by decide, by decide, by decide⟩, fun s h => ?_⟩
  have e4 : SpOp.run (R := Rat) (fun lt l => l.mergeSort (fun a b => ! lt b a))
      [Csr.ofDiag [1, 2, 3], Csr.ofDiag [1, 2, 3]] (.subMatrix 1 [2, 0] [0, 2])
      = .ok [Csr.ofDiag [1, 2, 3], Csr.ofDiag [1, 2, 3], ⟨2, 2, [0, 1, 2], [1, 0], [3, 1]⟩] := by
    decide
  rw [e4] at h
  obtain rfl := Except.ok.inj h
  refine ⟨⟨_, rfl, by decide, by decide⟩, fun s h => ?_⟩
  have e5 : SpOp.run (R := Rat) (fun lt l => l.mergeSort (fun a b => ! lt b a))
      [Csr.ofDiag [1, 2, 3], Csr.ofDiag [1, 2, 3], ⟨2, 2, [0, 1, 2], [1, 0], [3, 1]⟩] (.eliminateCol 2 0)
      = .ok [Csr.ofDiag [1, 2, 3], Csr.ofDiag [1, 2, 3], ⟨2, 2, [0, 1, 2], [1, 0], [3, 0]⟩] := by
    decide
  rw [e5] at h
  obtain rfl := Except.ok.inj h
  exact ⟨⟨_, _, rfl, rfl, rfl⟩, fun _ _ => trivial⟩

end Linalg
