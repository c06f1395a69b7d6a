import Verif.Model.ExampleMains
import Verif.Model.Digits
import Verif.Props.SparseMain
import Verif.Props.DenseMore
import Verif.Props.Vector
import Mathlib.Analysis.Real.Sqrt

/-!
# C125: the basic examples
-/

namespace Linalg
open Cpp Io

namespace Example
variable {K : Type} [Field K] [DecidableEq K]

omit [DecidableEq K] in
/-- **C125.**  `constructors` shows matrices of zeros of the sizes asked for and the matrix in the file. -/
theorem C125_constructors (F : Fmt K) (file : Option Text) (E : Csr K) (h : readCooList F file false = .ok E) :
    ∃ D, constructors F file = .ok [⟨0, 0, []⟩, ⟨2, 2, [0, 0, 0, 0]⟩, ⟨2, 3, [0, 0, 0, 0, 0, 0]⟩, D] ∧ D.Is E.rows E.cols E.coef := by
  obtain ⟨D, e, hD⟩ := C120_parseDense F file E h
  refine ⟨D, ?_, hD⟩
  unfold constructors
  have e2 : (Dense.square 2 : Res (Dense K)) = .ok ⟨2, 2, [0, 0, 0, 0]⟩ := rfl
  have e3 : (Dense.zeros 2 3 : Res (Dense K)) = .ok ⟨2, 3, [0, 0, 0, 0, 0, 0]⟩ := rfl
  rw [e2, ok_bind, e3, ok_bind, e, ok_bind]
  rfl

omit [DecidableEq K] in
theorem entry_of {D : Dense K} {m n : Int} {f : Int → Int → K} (h : D.Is m n f) {i j : Int} (h0 : 0 ≤ i) (h1 : i < m) (h2 : 0 ≤ j) (h3 : j < n) :
    D.entry i j = f i j := by
  unfold Dense.entry
  rw [h.get_eq i j h0 h1 h2 h3]

/-- **C125.**  `access_ops` shows the elements, the sum, the difference and the multiples of the matrices in the two files, if these have the same
size and at least three rows and columns.  The matrix shown as `10.0 * d0` is ten times the second one. -/
theorem C125_access [CharZero K] (F : Fmt K) (f0 f1 : Option Text) (E0 E1 : Csr K) (h0 : readCooList F f0 false = .ok E0)
    (h1 : readCooList F f1 false = .ok E1) (hr : E0.rows = E1.rows) (hc : E0.cols = E1.cols) (r3 : 3 ≤ E0.rows) (c3 : 3 ≤ E0.cols) :
    ∃ d0 d1 p s t q, accessOps F f0 f1 = .ok ((d0, d1), (E0.coef 1 2, E1.coef 2 2), [p, s, t, q]) ∧
      d0.Is E0.rows E0.cols E0.coef ∧ d1.Is E0.rows E0.cols E1.coef ∧
      p.Is E0.rows E0.cols (fun i j => E0.coef i j + E1.coef i j) ∧ s.Is E0.rows E0.cols (fun i j => E0.coef i j - E1.coef i j) ∧
      t.Is E0.rows E0.cols (fun i j => 10 * E1.coef i j) ∧ q.Is E0.rows E0.cols (fun i j => 5 / 2 * E1.coef i j) := by
  obtain ⟨d0, e0, i0⟩ := C120_parseDense F f0 E0 h0
  obtain ⟨d1, e1, i1⟩ := C120_parseDense F f1 E1 h1
  rw [← hr, ← hc] at i1
  obtain ⟨⟨p, ep, ip⟩, ⟨s, es, is⟩⟩ := (C69_add_sub d0 d1 i0.wf i1.wf).1 (by rw [i0.rows_eq, i1.rows_eq]) (by rw [i0.cols_eq, i1.cols_eq])
  have it := (C69_scalar d1 i1.wf 10).1
  obtain ⟨q, eq, iq, -⟩ := (C69_scalar (d1.mulScalar 10) it.wf 4).2.1 (by norm_num)
  rw [i0.rows_eq, i0.cols_eq] at ip is
  rw [i1.rows_eq, i1.cols_eq] at it
  rw [it.rows_eq, it.cols_eq] at iq
  refine ⟨d0, d1, p, s, _, q, ?_, i0, i1, ip.congr ?_, is.congr ?_, it.congr ?_, iq.congr ?_⟩
  · unfold accessOps
    rw [e0, ok_bind, e1, ok_bind, i0.get_eq 1 2 (by omega) (by omega) (by omega) (by omega), ok_bind,
      i1.get_eq 2 2 (by omega) (by omega) (by omega) (by omega), ok_bind, ep, ok_bind, es, ok_bind]
    dsimp only
    rw [eq, ok_bind]
  · intro i j a b c d
    rw [entry_of i0 a b c d, entry_of i1 a b c d]
  · intro i j a b c d
    rw [entry_of i0 a b c d, entry_of i1 a b c d]
  · intro i j a b c d
    rw [entry_of i1 a b c d, mul_comm]
  · intro i j a b c d
    rw [entry_of it a b c d, entry_of i1 a b c d]
    ring

/-- **C125.**  Otherwise it stops at an assertion. -/
theorem C125_access_rejects (F : Fmt K) (f0 f1 : Option Text) (E0 E1 : Csr K) (h0 : readCooList F f0 false = .ok E0)
    (h1 : readCooList F f1 false = .ok E1)
    (hn : ¬ (E0.rows = E1.rows ∧ E0.cols = E1.cols ∧ 3 ≤ E0.rows ∧ 3 ≤ E0.cols)) : accessOps F f0 f1 = .error .assertFail := by
  obtain ⟨d0, e0, i0⟩ := C120_parseDense F f0 E0 h0
  obtain ⟨d1, e1, i1⟩ := C120_parseDense F f1 E1 h1
  unfold accessOps
  rw [e0, ok_bind, e1, ok_bind]
  by_cases ha : 2 ≤ E0.rows ∧ 3 ≤ E0.cols
  · rw [i0.get_eq 1 2 (by omega) (by omega) (by omega) (by omega), ok_bind]
    by_cases hb : 3 ≤ E1.rows ∧ 3 ≤ E1.cols
    · rw [i1.get_eq 2 2 (by omega) (by omega) (by omega) (by omega), ok_bind,
        ((C69_add_sub d0 d1 i0.wf i1.wf).2 (by rw [i0.rows_eq, i1.rows_eq, i0.cols_eq, i1.cols_eq]; omega)).1]
      rfl
    · rw [(C33_rejects d1 2 2 0 (by rw [i1.rows_eq, i1.cols_eq]; omega)).1]
      rfl
  · rw [(C33_rejects d0 1 2 0 (by rw [i0.rows_eq, i0.cols_eq]; omega)).1]
    rfl

/-- **C125.**  What `matvec_ops` and `matmat_ops` show. -/
theorem C125_ops : (matvecOps : Res ((Dense ℚ × Dense ℚ) × (List ℚ × List ℚ))) =
      .ok ((⟨4, 2, [1, 0, 3, 0, 2, 0, 0, 4]⟩, ⟨2, 4, [1, 2, 0, 0, 3, 0, 0, 4]⟩), ([5, 0, -3, 12], [-6, 11])) ∧
    (matmatOps : Res (List (Dense ℚ))) =
      .ok [⟨4, 2, [1, 0, 3, 0, 2, 0, 0, 4]⟩, ⟨2, 4, [1, 2, 0, 0, 3, 0, 0, 4]⟩, ⟨2, 2, [10, 2, 2, 20]⟩,
        ⟨4, 4, [5, 0, 3, 8, 0, 0, 0, 0, 3, 0, 9, 0, 8, 0, 0, 16]⟩] := by
  constructor <;> decide +kernel

/-- **C125.**  On three files that hold matrices the dense example runs to its end exactly if the last two satisfy the condition of `access_ops`;
otherwise it stops at the assertion. -/
theorem C125_dense (F : Fmt ℚ) (f2 f4 f42 : Option Text) (E2 E0 E1 : Csr ℚ) (h2 : readCooList F f2 false = .ok E2)
    (h0 : readCooList F f4 false = .ok E0) (h1 : readCooList F f42 false = .ok E1) :
    denseMain F f2 f4 f42 =
      if E0.rows = E1.rows ∧ E0.cols = E1.cols ∧ 3 ≤ E0.rows ∧ 3 ≤ E0.cols then .ok () else .error .assertFail := by
  obtain ⟨D, e, -⟩ := C125_constructors F f2 E2 h2
  unfold denseMain
  rw [e, ok_bind]
  split_ifs with hn
  · obtain ⟨_, _, _, _, _, _, e', -⟩ := C125_access F f4 f42 E0 E1 h0 h1 hn.1 hn.2.1 hn.2.2.1 hn.2.2.2
    rw [e', ok_bind, C125_ops.1, ok_bind, C125_ops.2, ok_bind]
  · rw [C125_access_rejects F f4 f42 E0 E1 h0 h1 hn]
    rfl

/-- **C125.**  A file that cannot be opened ends the dense and the vector example with an exception. -/
theorem C125_open (F : Fmt ℚ) (f4 f42 : Option Text) (G : Fmt ℝ) : denseMain F none f4 f42 = .error .threw ∧ vectorMain G Real.sqrt none = .error .threw :=
  ⟨rfl, rfl⟩

/-- **C125.**  The vector example shows, for every file that can be opened: zeros, ones; 2 and 0; the numbers in the file; the inner products 12 and 24
and the norm `√24`; twos divided by it, threes and fours. -/
theorem C125_vector (F : Fmt ℝ) (t : Text) (v : List ℝ) (h : readText F (some t) = .ok v) :
    vectorMain F Real.sqrt (some t) = .ok (([], List.replicate 4 0, List.replicate 6 1), (2, 0), v, (12, Real.sqrt 24, 24),
      (List.replicate 6 (2 / Real.sqrt 24), List.replicate 6 3, List.replicate 6 4)) := by
  have hs : Real.sqrt 24 ≠ 0 := by positivity
  have hp : ∀ a b : ℝ, Vec.plus [a, a, a, a, a, a] [b, b, b, b, b, b] = .ok [a + b, a + b, a + b, a + b, a + b, a + b] := fun _ _ => rfl
  have hi : ∀ a b : ℝ, Vec.inner [a, a, a, a, a, a] [b, b, b, b, b, b] =
    .ok (0 + a * b + a * b + a * b + a * b + a * b + a * b) := fun _ _ => rfl
  have hd : ∀ a s : ℝ, s ≠ 0 → Vec.overScalar [a, a, a, a, a, a] s = .ok [a / s, a / s, a / s, a / s, a / s, a / s] := by
    intro a s h
    unfold Vec.overScalar View.divScalar
    rw [cassert_true h, ok_bind]
    rfl
  have hm : ∀ a : ℝ, mkVec 6 a = .ok [a, a, a, a, a, a] := fun _ => rfl
  have hm4 : mkVec 4 (0 : ℝ) = .ok [0, 0, 0, 0] := rfl
  have w0 : ∀ a b c : ℝ, vwr [a, b, b, b, b, b] 0 c = .ok [c, b, b, b, b, b] := fun _ _ _ => rfl
  have w1 : ∀ a b c : ℝ, vwr [a, b, b, b, b, b] 1 c = .ok [a, c, b, b, b, b] := fun _ _ _ => rfl
  have r0 : ∀ a b c : ℝ, vrd [a, b, c, c, c, c] 0 = .ok a := fun _ _ _ => rfl
  have r1 : ∀ a b c : ℝ, vrd [a, b, c, c, c, c] 1 = .ok b := fun _ _ _ => rfl
  have n24 : (0 + 2 * 2 + 2 * 2 + 2 * 2 + 2 * 2 + 2 * 2 + 2 * 2 : ℝ) = 24 := by norm_num
  have hn : Vec.l2Norm Real.sqrt [(2 : ℝ), 2, 2, 2, 2, 2] = .ok (Real.sqrt 24) := by
    unfold Vec.l2Norm
    rw [hi, ok_bind, n24]
  unfold vectorMain
  rw [hm4, ok_bind, hm, ok_bind, hm, ok_bind, hm, ok_bind, w0, ok_bind, r1, ok_bind, w1, ok_bind, r0, ok_bind, r1, ok_bind, h, ok_bind, hi, ok_bind, hn,
    ok_bind, hd _ _ hs, ok_bind, hi, ok_bind, hp, ok_bind, hp, ok_bind, n24]
  norm_num [List.replicate]

/-- The files that come with the examples. -/
def mat2 : Text := "0 0 1.0\n0 1 2.0\n1 0 3.0\n1 1 4.0\n".toList

/-- data/mat4.txt -/
def mat4 : Text :=
  "0 0 2.0\n0 1 -1.0\n1 0 -1.0\n1 1 2.0\n1 2 -1.0\n2 1 -1.0\n2 2 2.0\n2 3 -1.0\n3 2 -1.0\n3 3 2.0\n".toList

/-- data/mat4.2.txt -/
def mat42 : Text :=
  "0 0 4.0\n0 1 -1.0\n1 0 -1.0\n1 1 4.0\n1 2 -1.0\n2 1 -1.0\n2 2 4.0\n2 3 -1.0\n3 2 -1.0\n3 3 4.0\n".toList

/-- **C125.**  On the files that come with it the dense example runs to its end; the element shown as `d_1 (2, 3)` is the one at `(2, 2)`, which is
4, while the one at `(2, 3)` is -1, and the matrix shown as `10.0 * d0` differs from ten times `d_0`. -/
theorem C125_data : denseMain (ratFmt 6) (some mat2) (some mat4) (some mat42) = .ok () ∧
    (constructors (ratFmt 6) (some mat2)).map (fun l => l[3]?) = .ok (some ⟨2, 2, [1, 3, 2, 4]⟩) ∧
    accessOps (ratFmt 6) (some mat4) (some mat42) = .ok
      ((⟨4, 4, [2, -1, 0, 0, -1, 2, -1, 0, 0, -1, 2, -1, 0, 0, -1, 2]⟩, ⟨4, 4, [4, -1, 0, 0, -1, 4, -1, 0, 0, -1, 4, -1, 0, 0, -1, 4]⟩), (-1, 4),
        [⟨4, 4, [6, -2, 0, 0, -2, 6, -2, 0, 0, -2, 6, -2, 0, 0, -2, 6]⟩, ⟨4, 4, [-2, 0, 0, 0, 0, -2, 0, 0, 0, 0, -2, 0, 0, 0, 0, -2]⟩,
          ⟨4, 4, [40, -10, 0, 0, -10, 40, -10, 0, 0, -10, 40, -10, 0, 0, -10, 40]⟩,
          ⟨4, 4, [10, -5/2, 0, 0, -5/2, 10, -5/2, 0, 0, -5/2, 10, -5/2, 0, 0, -5/2, 10]⟩]) := by
  refine ⟨by decide +kernel, by decide +kernel, by decide +kernel⟩

example : readText (ratFmt 6) (some "1.0\n2.0\n3.0\n4.0\n".toList) = .ok [1, 2, 3, 4] ∧
    accessOps (ratFmt 6) (some mat2) (some mat42) = .error .assertFail := by
  constructor <;> decide +kernel

end Example
end Linalg
