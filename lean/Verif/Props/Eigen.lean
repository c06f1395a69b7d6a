import Verif.Spec.Eigen
import Verif.Spec.Csr
import Verif.Proof.Vec
import Mathlib.Analysis.Matrix.Spectrum
import Mathlib.Data.Fin.Tuple.Sort

/-!
# The dense eigensolver: properties C59, C60, C68
-/

namespace Linalg
open Cpp
namespace Eigen

variable {α R : Type}

theorem need_ok {len k : Int} (h : k ≤ len) : need len k = .ok () := if_pos h

theorem length_overwrite {p v : List α} (h : p.length ≤ v.length) : (overwrite p v).length = v.length := by
  unfold overwrite; simp; omega

theorem take_overwrite {p v : List α} {k : Nat} (h : p.length = k) : (overwrite p v).take k = p := by
  unfold overwrite; rw [← h]; simp

theorem overwrite_all {p v : List α} (h : p.length = v.length) : overwrite p v = p := by
  unfold overwrite; rw [h]; simp

/-- The workspace fits the allocated size. -/
structure Inv (S : Eigen α) : Prop where
  d : S.allocSize ≤ S.d.length
  e : S.allocSize ≤ S.e.length
  tau : S.allocSize ≤ S.tau.length
  iblock : S.allocSize ≤ S.iblock.length
  isplit : S.allocSize ≤ S.isplit.length
  iwork : S.allocSize ≤ S.iwork
  lwork : 5 * S.allocSize ≤ S.lwork
  work : S.lwork ≤ S.work
  ones : ∀ x ∈ S.iblock, x = 1

theorem inv_new : (Eigen.new : Eigen α).Inv :=
  by constructor <;> simp [Eigen.new]

theorem inv_allocate [Zero α] (L : Lapack α) {S : Eigen α} (h : S.Inv) {n : Int} (hn : 1 ≤ n) : (S.allocate L n).Inv := by
  have e : ∀ {β : Type} (v : List β) (x : β), n ≤ ((resize v n.toNat x).length : Int) := by
    intro β v x; rw [Dense.length_resize]; omega
  refine ⟨e _ _, e _ _, e _ _, e _ _, e _ _, le_rfl, ?_, le_rfl, ?_⟩
  · exact le_trans (le_max_left _ _) (le_max_left _ _)
  · intro x hx
    have hx' : x ∈ resize S.iblock n.toNat 1 := hx
    unfold resize at hx'
    rcases List.mem_append.mp hx' with h1 | h1
    · exact h.ones x (List.mem_of_mem_take h1)
    · exact (List.mem_replicate.mp h1).2

theorem count_spec [LinearOrder R] [Zero R] (w : List R) (tol : R) (M : Int) (hM : M ≤ w.length) (k : Nat) (m : Int) (hm : 1 ≤ m)
    (hk : M - m ≤ k) :
    ∃ m', count w tol M k m = .ok m' ∧ m ≤ m' ∧ m' ≤ max m M ∧ (∀ i, m ≤ i → i < m' → vecAt w i ≤ tol) ∧
      (m' < M → tol < vecAt w m') := by
  induction k generalizing m with
  | zero => exact ⟨m, rfl, le_rfl, le_max_left _ _, fun i h1 h2 => by omega, fun h => by omega⟩
  | succ k ih =>
    unfold count
    by_cases h : m < M
    · rw [if_pos h, rd_vecAt w (by omega) (by omega), ok_bind]
      by_cases hx : vecAt w m ≤ tol
      · rw [if_pos hx]
        obtain ⟨m', a, b, c, d, e⟩ := ih (m + 1) (by omega) (by omega)
        refine ⟨m', a, by omega, ?_, fun i h1 h2 => ?_, e⟩
        · rw [max_eq_right (by omega : m + 1 ≤ M)] at c
          exact le_trans c (le_max_right _ _)
        · by_cases hi : i = m
          · rw [hi]; exact hx
          · exact d i (by omega) h2
      · rw [if_neg hx]
        exact ⟨m, rfl, le_rfl, le_max_left _ _, fun i h1 h2 => by omega, fun _ => not_le.mp hx⟩
    · rw [if_neg h]
      exact ⟨m, rfl, le_rfl, le_max_left _ _, fun i h1 h2 => by omega, fun h' => absurd h' h⟩

/-- What `Solve` returns, in terms of the LAPACK routines. -/
theorem solve_eq [LinearOrder R] [MulZeroClass R] (L : Lapack R) (hL : L.Sized) (S : Eigen R) (hS : S.Inv) (A : Dense R)
    (hA : A.WF) (n : Nat) (hn : 1 ≤ n) (hr : A.rows = n) (hc : A.cols = n) (relTol : R) (maxEvect : Int) (hmax : maxEvect ≤ n)
    (evals : List R) (evects : Dense R) :
    ∃ (S' : Eigen R) (m : Nat) (is : List Int), S'.Inv ∧ 1 ≤ m ∧ m ≤ n ∧ is.length = n ∧ is.head? = some (n : Int) ∧
      S'.allocSize = max S.allocSize n ∧
      let r := L.sytrd n A.data
      let w := L.sterf n r.2.1 r.2.2.1
      let M : Int := if maxEvect < 0 then n else maxEvect
      (m : Int) ≤ max 1 M ∧ (∀ i : Int, 1 ≤ i → i < m → vecAt w i ≤ vecAt w (n - 1) * relTol) ∧
      ((m : Int) < M → vecAt w (n - 1) * relTol < vecAt w m) ∧
      S.solve L A relTol maxEvect evals evects
        = .ok (S', w, ⟨n, m, L.ormtr n m r.1 r.2.2.2 (L.stein n m r.2.1 r.2.2.1 w (List.replicate n 1) is)⟩) := by
  have hsz : A.data.length = n * n := by
    have := hA.size
    rw [hr, hc] at this
    exact_mod_cast this
  -- the workspace after the allocation
  obtain ⟨T, hT, hT', hTe⟩ : ∃ T : Eigen R, T.Inv ∧ T.allocSize = max S.allocSize n ∧
      (if S.allocSize < (n : Int) then S.allocate L n else S) = T := by
    by_cases h : S.allocSize < (n : Int)
    · refine ⟨S.allocate L n, inv_allocate L hS (by omega), ?_, if_pos h⟩
      show (n : Int) = _
      rw [max_eq_right (by omega)]
    · refine ⟨S, hS, ?_, if_neg h⟩
      rw [max_eq_left (by omega)]
  have hnT : (n : Int) ≤ T.allocSize := by rw [hT']; exact le_max_right _ _
  have Td := hT.d
  have Te := hT.e
  have Tt := hT.tau
  have Tb := hT.iblock
  have Ts := hT.isplit
  have Tw := hT.iwork
  have Tl := hT.lwork
  have Tk := hT.work
  obtain ⟨z1, z2, z3, z4⟩ := hL.sytrd n A.data hn hsz
  generalize hrr : L.sytrd n A.data = r at z1 z2 z3 z4
  obtain ⟨ra, rd', re, rt⟩ := r
  simp only at z1 z2 z3 z4
  have hw := hL.sterf n rd' re hn z2 z3
  generalize hww : L.sterf n rd' re = w at hw
  -- the first call
  have nn : ((n : Int) * n).toNat = n * n := by
    have : (n : Int) * n = ((n * n : Nat) : Int) := by push_cast; rfl
    rw [this, Int.toNat_natCast]
  have nm1 : ((n : Int) - 1).toNat = n - 1 := by omega
  have h1 : callSytrd L n { T with A := A.data }
      = .ok { T with A := overwrite ra A.data, d := overwrite rd' T.d, e := overwrite re T.e, tau := overwrite rt T.tau } := by
    unfold callSytrd
    simp only
    rw [cverify_true (by omega), ok_bind, need_ok (by rw [hsz]; push_cast; exact le_rfl), ok_bind, need_ok (by omega), ok_bind,
      need_ok (by omega), ok_bind, need_ok (by omega), ok_bind, need_ok Tk, ok_bind, nn, Int.toNat_natCast,
      List.take_of_length_le (by omega), hrr]
  have hd : (overwrite rd' T.d).take n = rd' := take_overwrite z2
  have he : (overwrite re T.e).take (n - 1) = re := take_overwrite z3
  have ld : (overwrite rd' T.d).length = T.d.length := length_overwrite (by omega)
  have le' : (overwrite re T.e).length = T.e.length := length_overwrite (by omega)
  have lt' : (overwrite rt T.tau).length = T.tau.length := length_overwrite (by omega)
  -- the copy
  have h2 : forUp 0 (n : Int) (resize evals n 0) (fun i evals => do
      let x ← rd (overwrite rd' T.d) i
      wr evals i x) = .ok rd' := by
    rw [eq_vecFn_vecAt (resize evals n 0), Dense.length_resize]
    have e : rd' = vecFn n (fun i => vecAt rd' i) := by
      have := eq_vecFn_vecAt rd'
      rw [z2] at this
      exact this
    conv_rhs => rw [e]
    apply fillLoop
    intro i v i0 i1 _
    have e2 : rd (overwrite rd' T.d) i = .ok (vecAt rd' i) := by
      rw [rd_vecAt _ i0 (by omega)]
      congr 1
      rw [vecAt_int _ i0 (by omega), vecAt_int _ i0 (by omega)]
      unfold overwrite
      rw [List.getElem_append_left]
    rw [e2, ok_bind]
  -- the eigenvalues
  have h3 : callSterf L n rd' (overwrite re T.e) = .ok w := by
    unfold callSterf
    rw [need_ok (by omega), ok_bind, need_ok (by omega), ok_bind, Int.toNat_natCast, nm1, he, List.take_of_length_le (by omega), hww,
      overwrite_all (by omega)]
  -- the count
  have hM : (if maxEvect < 0 then (n : Int) else maxEvect) ≤ w.length := by rw [hw]; split <;> omega
  obtain ⟨m', c1, c2, c3, c4, c5⟩ := count_spec w (vecAt w (n - 1) * relTol) _ hM
    ((if maxEvect < 0 then (n : Int) else maxEvect).toNat) 1 le_rfl (by omega)
  obtain ⟨m, rfl⟩ : ∃ m : Nat, m' = m := ⟨m'.toNat, by omega⟩
  have hmn : m ≤ n := by
    have : max 1 (if maxEvect < 0 then (n : Int) else maxEvect) ≤ n := by
      apply max_le
      · omega
      · split <;> omega
    omega
  have hm1 : 1 ≤ m := by omega
  obtain ⟨s0, sr, hs⟩ : ∃ a l, T.isplit = a :: l := by
    cases hh : T.isplit with
    | nil => rw [hh] at Ts; simp at Ts; omega
    | cons a l => exact ⟨a, l, rfl⟩
  have hones : T.iblock.take n = List.replicate n 1 := by
    apply List.eq_replicate_iff.mpr
    refine ⟨by rw [List.length_take]; omega, fun x hx => hT.ones x (List.mem_of_mem_take hx)⟩
  let is : List Int := (n : Int) :: sr.take (n - 1)
  have lsr : n - 1 ≤ sr.length := by rw [hs] at Ts; simp at Ts; omega
  have his : is.length = n := by simp only [is, List.length_cons, List.length_take]; omega
  have hstk : (((n : Int) :: sr).take n) = is := by
    obtain ⟨k, rfl⟩ : ∃ k, n = k + 1 := ⟨n - 1, by omega⟩
    rfl
  have zs := hL.stein n m rd' re w (List.replicate n 1) is hm1 hmn z2 z3 hw (by simp) his
  have zo := hL.ormtr n m ra rt _ hm1 hmn z1 z4 zs
  refine ⟨{ T with
      A := overwrite ra A.data
      d := overwrite rd' T.d
      e := overwrite re T.e
      tau := overwrite rt T.tau
      ifail := m
      isplit := (n : Int) :: sr }, m, is, ?_, hm1, hmn, his, rfl, hT', ?_⟩
  · refine ⟨by simp only [ld]; exact Td, by simp only [le']; exact Te, by simp only [lt']; exact Tt, Tb, ?_, Tw, Tl, Tk, hT.ones⟩
    rw [hs] at Ts
    exact Ts
  · simp only
    rw [hww]
    refine ⟨c3, c4, c5, ?_⟩
    unfold solve
    simp only
    rw [hr, if_neg (show ¬ ((n : Int) < 1) by omega), hTe, h1, ok_bind]
    simp only [Int.toNat_natCast]
    rw [h2, ok_bind, h3, ok_bind]
    unfold vectors
    simp only
    rw [hw, rd_vecAt w (by omega) (by omega), ok_bind, c1, ok_bind]
    simp only [hs]
    rw [wr_int le_rfl (by simp), ok_bind]
    simp only [Int.toNat_zero, List.set_cons_zero]
    have hset : ∃ D : Dense R, evects.setSize n m = .ok D ∧ D.rows = n ∧ D.cols = m ∧ D.data.length = n * m := by
      unfold Dense.setSize
      rw [cassert_true (by omega), ok_bind, cassert_true (by omega), ok_bind]
      refine ⟨_, rfl, rfl, rfl, ?_⟩
      simp only [Dense.length_resize]
      have : (n : Int) * m = ((n * m : Nat) : Int) := by push_cast; rfl
      rw [this, Int.toNat_natCast]
    obtain ⟨D, D1, D2, D3, D4⟩ := hset
    have nmc : (n : Int) * m = ((n * m : Nat) : Int) := by push_cast; rfl
    rw [D1, ok_bind]
    unfold callStein
    simp only
    rw [cverify_true (by omega), ok_bind, need_ok (by omega), ok_bind, need_ok (by omega), ok_bind, need_ok (by omega), ok_bind,
      need_ok (by omega), ok_bind, need_ok (by rw [hs] at Ts; simp at Ts ⊢; omega), ok_bind, need_ok (by rw [nmc, D4]), ok_bind,
      need_ok (by omega), ok_bind, need_ok (by omega), ok_bind, need_ok le_rfl, ok_bind, ok_bind]
    simp only [Int.toNat_natCast]
    rw [hd, nm1, he, List.take_of_length_le (by omega : w.length ≤ n), hones, hstk,
      overwrite_all (by rw [zs, D4] : (L.stein n m rd' re w (List.replicate n 1) is).length = D.data.length),
      overwrite_all (by omega : ra.length = A.data.length)]
    unfold callOrmtr
    simp only
    rw [cverify_true (by omega), ok_bind, need_ok (by rw [z1]; push_cast; exact le_rfl), ok_bind,
      need_ok (by omega), ok_bind, need_ok (by rw [nmc, zs]), ok_bind, need_ok Tk, ok_bind, ok_bind]
    rw [nn, nm1, nmc]
    simp only [Int.toNat_natCast]
    rw [List.take_of_length_le (by omega : ra.length ≤ n * n),
      take_overwrite z4, List.take_of_length_le (by omega), 
      overwrite_all (by rw [zo, zs] : (L.ormtr n m ra rt (L.stein n m rd' re w (List.replicate n 1) is)).length
        = (L.stein n m rd' re w (List.replicate n 1) is).length)]
    have hres : resize w n 0 = w := by
      unfold resize
      rw [List.take_of_length_le (by omega), hw, Nat.sub_self, List.replicate_zero, List.append_nil]
    rw [hres, D2, D3]

/-- The solver after any sequence of calls with square matrices, whatever their sizes. -/
inductive Reach [LinearOrder R] [MulZeroClass R] (L : Lapack R) : Eigen R → Prop
  | new : Reach L Eigen.new
  | solve {S S' : Eigen R} {A : Dense R} {relTol : R} {maxEvect : Int} {evals w : List R} {evects D : Dense R} (h : Reach L S)
      (hA : A.WF) (hsq : A.rows = A.cols) (hmax : maxEvect ≤ A.rows)
      (hs : S.solve L A relTol maxEvect evals evects = .ok (S', w, D)) : Reach L S'

theorem solve_zero [LinearOrder R] [MulZeroClass R] (L : Lapack R) (S : Eigen R) (A : Dense R) (h : A.rows = 0) (relTol : R)
    (maxEvect : Int) (evals : List R) (evects : Dense R) :
    S.solve L A relTol maxEvect evals evects = .ok (S, [], ⟨0, 0, []⟩) := by
  unfold solve
  simp only
  rw [if_pos (by omega)]
  unfold Dense.setSize
  rw [cassert_true (by omega), ok_bind, ok_bind, h]
  simp [resize]

theorem Reach.inv [LinearOrder R] [MulZeroClass R] {L : Lapack R} (hL : L.Sized) {S : Eigen R} (h : Reach L S) : S.Inv := by
  induction h with
  | new => exact inv_new
  | @solve S S' A relTol maxEvect evals w evects D h hA hsq hmax hs ih =>
    have hr := hA.rows_nonneg
    by_cases h0 : A.rows = 0
    · rw [solve_zero L S A h0] at hs
      obtain rfl : S = S' := congrArg Prod.fst (Except.ok.inj hs)
      exact ih
    · obtain ⟨n, hn⟩ : ∃ n : Nat, A.rows = n := ⟨A.rows.toNat, by omega⟩
      obtain ⟨T, m, is, hT, _, _, _, _, _, _, _, _, e⟩ := solve_eq L hL S ih A hA n (by omega) hn (by omega) relTol maxEvect
        (by omega) evals evects
      rw [e] at hs
      obtain rfl : T = S' := congrArg Prod.fst (Except.ok.inj hs)
      exact hT

/-- **C60.**  After any sequence of calls, of any sizes, no LAPACK routine gets an array shorter than it needs or an argument it
rejects: every call with a square matrix and at most as many eigenvectors as its size returns, with all eigenvalues and between
1 and `n` eigenvectors. -/
theorem C60_workspace [LinearOrder R] [MulZeroClass R] (L : Lapack R) (hL : L.Sized) (S : Eigen R) (hS : Reach L S) (A : Dense R)
    (hA : A.WF) (hsq : A.rows = A.cols) (relTol : R) (maxEvect : Int) (hmax : maxEvect ≤ A.rows) (evals : List R)
    (evects : Dense R) :
    ∃ S' w D, S.solve L A relTol maxEvect evals evects = .ok (S', w, D) ∧ Reach L S' ∧ (w.length : Int) = A.rows ∧ D.WF ∧
      D.rows = A.rows ∧ D.cols ≤ A.rows ∧ (1 ≤ A.rows → 1 ≤ D.cols) := by
  have hr := hA.rows_nonneg
  by_cases h0 : A.rows = 0
  · refine ⟨S, [], ⟨0, 0, []⟩, solve_zero L S A h0 _ _ _ _, hS, ?_, ⟨le_rfl, le_rfl, rfl⟩, ?_, ?_, fun h => ?_⟩
    · rw [h0]; rfl
    · rw [h0]
    · rw [h0]
    · omega
  · obtain ⟨n, hn⟩ : ∃ n : Nat, A.rows = n := ⟨A.rows.toNat, by omega⟩
    obtain ⟨T, m, is, hT, hm1, hmn, his, _, _, _, _, _, e⟩ := solve_eq L hL S (hS.inv hL) A hA n (by omega) hn (by omega) relTol
      maxEvect (by omega) evals evects
    have hsz : A.data.length = n * n := by
      have := hA.size
      rw [hn, show A.cols = n by omega] at this
      exact_mod_cast this
    obtain ⟨z1, z2, z3, z4⟩ := hL.sytrd n A.data (by omega) hsz
    have hw := hL.sterf n _ _ (by omega) z2 z3
    have zs := hL.stein n m _ _ _ (List.replicate n 1) is hm1 hmn z2 z3 hw (by simp) his
    have zo := hL.ormtr n m _ _ _ hm1 hmn z1 z4 zs
    refine ⟨_, _, _, e, hS.solve hA hsq hmax e, by rw [hw, hn], ⟨by simp, by simp, ?_⟩, by simp [hn], ?_, fun _ => ?_⟩
    · show ((_ : Nat) : Int) = _
      rw [zo]; push_cast; rfl
    · rw [hn]; show ((m : Nat) : Int) ≤ n; omega
    · show (1 : Int) ≤ (m : Nat); omega

/-- A stand-in with arrays of the right length. -/
def toy : Lapack Int where
  sytrdWork _ := 1
  ormtrWork _ := 1
  sytrd n a := (a, List.replicate n 5, List.replicate (n - 1) 0, List.replicate (n - 1) 0)
  sterf _ d _ := d
  stein n m _ _ _ _ _ := List.replicate (n * m) 1
  ormtr _ _ _ _ c := c

theorem toy_sized : toy.Sized where
  sytrd n a h1 h2 := ⟨h2, by simp [toy], by simp [toy], by simp [toy]⟩
  sterf n d e h1 h2 h3 := h2
  stein n m d e w ib is h1 h2 h3 h4 h5 h6 h7 := by simp [toy]
  ormtr n m a tau c h1 h2 h3 h4 h5 := h5

/-- **C60** needs a square matrix: the number of columns is not checked, and `dsytrd_` is given `n * n` elements that are not
there. -/
theorem C60_rectangular_false : ∃ (L : Lapack Int) (A : Dense Int), L.Sized ∧ A.WF ∧ A.rows ≠ A.cols ∧
    Eigen.new.solveNew L A 1 1 = .error .outOfBounds :=
  ⟨toy, ⟨2, 1, [1, 2]⟩, toy_sized, by decide, by decide, by decide⟩

/-- **C59.**  How many eigenvectors are returned: at least 1, at most `max_evect` if that is positive, all of them allowed if it
is negative; every one after the first has an eigenvalue within the tolerance, and the next eigenvalue, if another vector was
allowed, has not. -/
theorem C59_count [LinearOrder R] [MulZeroClass R] (L : Lapack R) (hL : L.Sized) (S : Eigen R) (hS : Reach L S) (A : Dense R)
    (hA : A.WF) (hsq : A.rows = A.cols) (h1 : 1 ≤ A.rows) (relTol : R) (maxEvect : Int) (hmax : maxEvect ≤ A.rows) (evals : List R)
    (evects : Dense R) (S' : Eigen R) (w : List R) (D : Dense R)
    (h : S.solve L A relTol maxEvect evals evects = .ok (S', w, D)) :
    1 ≤ D.cols ∧ (0 ≤ maxEvect → D.cols ≤ max 1 maxEvect) ∧ D.cols ≤ A.rows ∧
    (∀ i, 1 ≤ i → i < D.cols → vecAt w i ≤ vecAt w (A.rows - 1) * relTol) ∧
    (D.cols < (if maxEvect < 0 then A.rows else maxEvect) → vecAt w (A.rows - 1) * relTol < vecAt w D.cols) := by
  obtain ⟨n, hn⟩ : ∃ n : Nat, A.rows = n := ⟨A.rows.toNat, by omega⟩
  obtain ⟨T, m, is, hT, hm1, hmn, his, _, _, c1, c2, c3, e⟩ := solve_eq L hL S (hS.inv hL) A hA n (by omega) hn (by omega) relTol
    maxEvect (by omega) evals evects
  rw [e] at h
  obtain rfl : _ = w := congrArg (fun r => r.2.1) (Except.ok.inj h)
  obtain rfl : _ = D := congrArg (fun r => r.2.2) (Except.ok.inj h)
  rw [hn]
  refine ⟨by show (1 : Int) ≤ (m : Nat); omega, fun h0 => ?_, by show ((m : Nat) : Int) ≤ n; omega, c2, c3⟩
  rw [if_neg (by omega)] at c1
  exact c1

/-- **C59** needs `max_evect` at most the size: otherwise, when all eigenvalues are within the tolerance, the loop reads past the
last eigenvalue. -/
theorem C59_too_many_false : ∃ (L : Lapack Int) (A : Dense Int), L.Sized ∧ A.WF ∧ A.rows = A.cols ∧
    Eigen.new.solveNew L A 1 3 = .error .outOfBounds :=
  ⟨toy, ⟨2, 2, [5, 0, 0, 5]⟩, toy_sized, by decide, by decide, by decide⟩

/-- C59, C60: a larger, then a smaller matrix; with `max_evect = 0` one eigenvector is still returned. -/
example : ∃ (S : Eigen Int), Reach toy S ∧ S.allocSize = 3 ∧ ∃ S', S.solveNew toy ⟨2, 2, [5, 0, 0, 5]⟩ 1 0
    = .ok (S', [5, 5], ⟨2, 1, [1, 1]⟩) := by
  refine ⟨_, Reach.solve (L := toy) (A := ⟨3, 3, [5, 0, 0, 0, 5, 0, 0, 0, 5]⟩) (relTol := 1) (maxEvect := -1) (evals := [])
    (w := [5, 5, 5]) (evects := Dense.empty) (D := ⟨3, 3, [1, 1, 1, 1, 1, 1, 1, 1, 1]⟩) .new (by decide) rfl (by decide) (by rfl),
    rfl, ?_⟩
  exact ⟨_, by rfl⟩

/-- **C68.**  If LAPACK computes what it documents, then for a symmetric matrix `Solve` returns its eigenvalues in ascending
order and orthonormal eigenvectors for the first of them, after any earlier calls. -/
theorem C68_eigenpairs [CommRing R] [LinearOrder R] (L : Lapack R) (hL : L.Exact) (S : Eigen R) (hS : Reach L S) (A : Dense R)
    (hA : A.WF) (n : Nat) (hn : 1 ≤ n) (hr : A.rows = n) (hc : A.cols = n) (hsym : (matOf n n A.data).IsSymm) (relTol : R)
    (maxEvect : Int) (hmax : maxEvect ≤ n) (evals : List R) (evects : Dense R) :
    ∃ S' w m V, S.solve L A relTol maxEvect evals evects = .ok (S', w, ⟨n, (m : Nat), V⟩) ∧ 1 ≤ m ∧ m ≤ n ∧ V.length = n * m ∧
      Spectrum (matOf n n A.data) w ∧ EigenVectors (matOf n n A.data) w (matOf n m V) := by
  obtain ⟨T, m, is, hT, hm1, hmn, his, hi0, _, _, _, _, e⟩ := solve_eq L hL.toSized S (hS.inv hL.toSized) A hA n hn hr hc relTol
    maxEvect hmax evals evects
  have hsz : A.data.length = n * n := by
    have := hA.size
    rw [hr, hc] at this
    exact_mod_cast this
  obtain ⟨z1, z2, z3, z4⟩ := hL.sytrd n A.data hn hsz
  obtain ⟨Q, q1, q2, q3⟩ := hL.reduce n A.data hn hsz hsym
  have hv := hL.values n _ _ hn z2 z3
  have hz := hL.vectors n m _ _ _ (List.replicate n 1) is hm1 hmn z2 z3 hv rfl his hi0
  have zs := hL.stein n m _ _ _ (List.replicate n 1) is hm1 hmn z2 z3 hv.1 (by simp) his
  have hq := q3 m _ hm1 hmn zs
  have zo := hL.ormtr n m _ _ _ hm1 hmn z1 z4 zs
  have key : ∀ {k : Nat} (Z : Matrix (Fin n) (Fin k) R) (v : Fin k → R),
      tridiag n (L.sytrd n A.data).2.1 (L.sytrd n A.data).2.2.1 * Z = Z * Matrix.diagonal v →
      matOf n n A.data * (Q * Z) = Q * Z * Matrix.diagonal v := by
    intro k Z v h
    conv_lhs => rw [q2]
    rw [Matrix.mul_assoc, ← Matrix.mul_assoc Q.transpose, q1, Matrix.one_mul, Matrix.mul_assoc, h, Matrix.mul_assoc]
  have orth : ∀ {k : Nat} (Z : Matrix (Fin n) (Fin k) R), Z.transpose * Z = 1 → (Q * Z).transpose * (Q * Z) = 1 := by
    intro k Z h
    rw [Matrix.transpose_mul, Matrix.mul_assoc, ← Matrix.mul_assoc Q.transpose, q1, Matrix.one_mul, h]
  refine ⟨_, _, m, _, e, hm1, hmn, zo, ⟨hv.1, hv.2.1, ?_⟩, ?_⟩
  · obtain ⟨U, u1, u2⟩ := hv.2.2
    exact ⟨Q * U, orth U u1, key U _ u2⟩
  · rw [hq]
    exact ⟨orth _ hz.1, key _ _ hz.2⟩

/-! The assumption on LAPACK can be met over the reals, by the spectral theorem. -/

/-- A matrix, column by column. -/
def listOf {n m : Nat} (M : Matrix (Fin n) (Fin m) R) : List R :=
  List.ofFn (fun k : Fin (n * m) =>
    M ⟨k % n, Nat.mod_lt _ (Nat.pos_of_ne_zero (by rintro rfl; exact absurd k.isLt (by simp)))⟩ ⟨k / n, Nat.div_lt_of_lt_mul k.isLt⟩)

theorem length_listOf {n m : Nat} (M : Matrix (Fin n) (Fin m) R) : (listOf M).length = n * m := by
  unfold listOf; rw [List.length_ofFn]

theorem matOf_listOf [Zero R] {n m : Nat} (M : Matrix (Fin n) (Fin m) R) : matOf n m (listOf M) = M := by
  ext i j
  unfold matOf listOf
  have hlt := Dense.idx_lt i.isLt j.isLt
  rw [List.getD_eq_getElem?_getD, List.getElem?_ofFn, dif_pos hlt, Option.getD_some]
  congr 1
  · exact Fin.ext (Dense.idx_mod i.isLt)
  · exact Fin.ext (Dense.idx_div i.isLt)

theorem spectral {n : Nat} (T : Matrix (Fin n) (Fin n) ℝ) (h : T.IsSymm) : ∃ w : List ℝ, Spectrum T w := by
  have hT : T.IsHermitian := by
    unfold Matrix.IsHermitian
    rw [Matrix.conjTranspose_eq_transpose_of_trivial]
    exact h
  obtain ⟨U, v, u1, u2⟩ : ∃ (U : Matrix (Fin n) (Fin n) ℝ) (v : Fin n → ℝ), U.transpose * U = 1 ∧ T * U = U * Matrix.diagonal v := by
    have h1 : (star (hT.eigenvectorUnitary : Matrix (Fin n) (Fin n) ℝ)) * hT.eigenvectorUnitary = 1 := Unitary.coe_star_mul_self _
    refine ⟨hT.eigenvectorUnitary, hT.eigenvalues, ?_, ?_⟩
    · rw [Matrix.star_eq_conjTranspose, Matrix.conjTranspose_eq_transpose_of_trivial] at h1
      exact h1
    · have h2 := hT.spectral_theorem
      rw [Unitary.conjStarAlgAut_apply] at h2
      have h3 := congrArg (fun M => M * (hT.eigenvectorUnitary : Matrix (Fin n) (Fin n) ℝ)) h2
      simp only [Matrix.mul_assoc, h1, Matrix.mul_one] at h3
      exact h3
  refine ⟨List.ofFn (v ∘ Tuple.sort v), by simp, ?_, U.submatrix id (Tuple.sort v), ?_, ?_⟩
  · rw [List.pairwise_ofFn]
    intro i j hij
    exact Tuple.monotone_sort v hij.le
  · rw [Matrix.transpose_submatrix, ← Matrix.submatrix_mul _ _ _ id _ Function.bijective_id, u1, Matrix.submatrix_one_equiv]
  · have e : T * U.submatrix id (Tuple.sort v) = (T * U).submatrix id (Tuple.sort v) := by
      rw [Matrix.submatrix_mul _ _ id id _ Function.bijective_id, Matrix.submatrix_id_id]
    rw [e, u2]
    ext i k
    rw [Matrix.submatrix_apply, Matrix.mul_diagonal, Matrix.mul_diagonal]
    simp [List.getD_eq_getElem?_getD]

theorem tridiag_symm (n : Nat) (d e : List ℝ) : (tridiag n d e).IsSymm := by
  ext i j
  rw [Matrix.transpose_apply]
  unfold tridiag
  by_cases h : i = j
  · rw [h]
  · rw [if_neg (fun e => h e.symm), if_neg h]
    by_cases h1 : (j : Nat) + 1 = i
    · rw [if_pos h1, if_neg (by omega), if_pos h1]
    · rw [if_neg h1]
      by_cases h2 : (i : Nat) + 1 = j
      · rw [if_pos h2, if_pos h2]
      · rw [if_neg h2, if_neg h2, if_neg h1]

theorem tridiag_zero (n : Nat) (d : List ℝ) :
    tridiag n d (List.replicate (n - 1) 0) = Matrix.diagonal (fun k : Fin n => d.getD k 0) := by
  ext i j
  unfold tridiag
  have hz : ∀ k : Nat, (List.replicate (n - 1) (0 : ℝ)).getD k 0 = 0 := by
    intro k
    rw [List.getD_eq_getElem?_getD, List.getElem?_replicate]
    split <;> rfl
  by_cases h : i = j
  · rw [if_pos h, h, Matrix.diagonal_apply_eq]
  · rw [if_neg h, Matrix.diagonal_apply_ne _ h, hz, hz]
    simp

/-- C68: there is an exact LAPACK over the reals. -/
example : ∃ L : Lapack ℝ, L.Exact := by
  have h1 : ∀ (n : Nat) (a : List ℝ), ∃ r : List ℝ × List ℝ × List ℝ × List ℝ,
      (r.1.length = n * n ∧ r.2.1.length = n ∧ r.2.2.1.length = n - 1 ∧ r.2.2.2.length = n - 1) ∧
      ((matOf n n a).IsSymm → (matOf n n r.1).transpose * matOf n n r.1 = 1 ∧
        matOf n n a = matOf n n r.1 * tridiag n r.2.1 r.2.2.1 * (matOf n n r.1).transpose) := by
    intro n a
    by_cases h : (matOf n n a).IsSymm
    · obtain ⟨w, w1, w2, U, u1, u2⟩ := spectral _ h
      refine ⟨(listOf U, w, List.replicate (n - 1) 0, List.replicate (n - 1) 0), ⟨length_listOf U, w1, by simp, by simp⟩,
        fun _ => ?_⟩
      simp only [matOf_listOf, tridiag_zero]
      refine ⟨u1, ?_⟩
      rw [← u2, Matrix.mul_assoc, mul_eq_one_comm.mp u1, Matrix.mul_one]
    · exact ⟨(List.replicate (n * n) 0, List.replicate n 0, List.replicate (n - 1) 0, List.replicate (n - 1) 0),
        ⟨by simp, by simp, by simp, by simp⟩, fun h' => absurd h' h⟩
  have h3 : ∀ (n m : Nat) (d e w : List ℝ), ∃ z : List ℝ, z.length = n * m ∧
      (m ≤ n → Spectrum (tridiag n d e) w → EigenVectors (tridiag n d e) w (matOf n m z)) := by
    intro n m d e w
    by_cases h : m ≤ n ∧ Spectrum (tridiag n d e) w
    · obtain ⟨hm, _, _, U, u1, u2⟩ := h
      refine ⟨listOf (U.submatrix id (Fin.castLE hm)), length_listOf _, fun _ _ => ?_⟩
      rw [matOf_listOf]
      constructor
      · rw [Matrix.transpose_submatrix, ← Matrix.submatrix_mul _ _ _ id _ Function.bijective_id, u1]
        exact Matrix.submatrix_one _ (Fin.castLE_injective hm)
      · have e' : tridiag n d e * U.submatrix id (Fin.castLE hm) = (tridiag n d e * U).submatrix id (Fin.castLE hm) := by
          rw [Matrix.submatrix_mul _ _ id id _ Function.bijective_id, Matrix.submatrix_id_id]
        rw [e', u2]
        ext i k
        rw [Matrix.submatrix_apply, Matrix.mul_diagonal, Matrix.mul_diagonal]
        rfl
    · exact ⟨List.replicate (n * m) 0, by simp, fun a b => absurd ⟨a, b⟩ h⟩
  choose f hf using h1
  choose g hg using fun (n : Nat) (d e : List ℝ) => spectral (tridiag n d e) (tridiag_symm n d e)
  choose z hz using h3
  refine ⟨⟨fun _ => 1, fun _ => 1, f, g, fun n m d e w _ _ => z n m d e w, fun n m a _ c => listOf (matOf n n a * matOf n m c)⟩, ?_⟩
  refine { sytrd := fun n a _ _ => (hf n a).1, sterf := fun n d e _ _ _ => (hg n d e).1,
           stein := fun n m d e w _ _ _ _ _ _ _ _ _ => (hz n m d e w).1, ormtr := fun n m a tau c _ _ _ _ _ => length_listOf _,
           reduce := fun n a _ _ h => ⟨matOf n n (f n a).1, ((hf n a).2 h).1, ((hf n a).2 h).2, fun m c _ _ _ => matOf_listOf _⟩,
           values := fun n d e _ _ _ => hg n d e,
           vectors := fun n m d e w _ _ _ hm _ _ h _ _ _ => (hz n m d e w).2 hm h }

/-- C68: a symmetric matrix. -/
example : ∃ A : Dense Int, A.WF ∧ A.rows = 2 ∧ A.cols = 2 ∧ (matOf 2 2 A.data).IsSymm :=
  ⟨⟨2, 2, [2, 1, 1, 3]⟩, by decide, rfl, rfl, by ext i j; fin_cases i <;> fin_cases j <;> rfl⟩

end Eigen
end Linalg
