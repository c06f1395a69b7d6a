import Verif.Proof.Mixed
import Verif.Proof.Lil
import Mathlib.Algebra.Order.Floor.Ring
import Mathlib.Tactic.Linarith
import Mathlib.Tactic.Push

/-!
# Operands of different element types (C109)
-/

namespace Linalg
open Cpp

variable {T U V : Type}

theorem MixVal.foldl_val [Zero V] (m : Mix T U V) (l : List (T × U)) (s : MixVal T U V) :
    (let _i := MixVal.add m; ((l.map (fun e => (MixVal.t e.1 * MixVal.u e.2 : MixVal T U V))).foldl (fun s a => s + a) s).val m)
      = l.foldl (fun s e => m.acc s e.1 e.2) (s.val m) := by
  induction l generalizing s with
  | nil => rfl
  | cons e l ih =>
    rw [List.map_cons, List.foldl_cons, List.foldl_cons]
    exact ih _

theorem MixVal.addUp_val [Zero V] (m : Mix T U V) (l : List (T × U)) :
    (let _i := MixVal.add m; (addUp (l.map (fun e => (MixVal.t e.1 * MixVal.u e.2 : MixVal T U V)))).val m) = m.sumUp l :=
  MixVal.foldl_val m l 0

theorem MixVal.addOn_val [Zero V] (m : Mix T U V) (l : List (T × U)) :
    (let _i := MixVal.add m; (addOn (l.map (fun e => (MixVal.t e.1 * MixVal.u e.2 : MixVal T U V)))).val m) = m.sumOn l := by
  cases l with
  | nil => rfl
  | cons e l => exact MixVal.foldl_val m l _

theorem vecAt_u [Zero U] [Zero V] {x : List U} {c : Int} (h0 : 0 ≤ c) (h1 : c < x.length) :
    vecAt (x.map (MixVal.u : U → MixVal T U V)) c = MixVal.u (vecAt x c) := by
  rw [vecAt_int _ h0 (by simpa using h1), vecAt_int _ h0 h1, List.getElem_map]

theorem MixRel.vecIs [Zero V] {m : Mix T U V} {y : List V} {w : List (MixVal T U V)} (h : MixRel m y w) {n : Int} {f : Int → MixVal T U V}
    (hw : VecIs w n f) : VecIs y n (fun i => (f i).val m) := by
  refine ⟨by rw [h.1, List.length_map]; exact hw.length_eq, fun i h0 h1 => ?_⟩
  rw [h.1, rd_map, hw.get_eq i h0 h1]
  rfl

theorem VecIs.imp {α : Type} {y : List α} {n : Int} {f g : Int → α} (h : VecIs y n f) (hg : ∀ i, 0 ≤ i → i < n → f i = g i) : VecIs y n g :=
  ⟨h.length_eq, fun i h0 h1 => by rw [h.get_eq i h0 h1, hg i h0 h1]⟩

theorem Csr.WF.mem_row {α : Type} {A : Csr α} (h : A.WF) {i : Int} {e : Int × α} (he : e ∈ A.row i) : 0 ≤ e.1 ∧ e.1 < A.cols := by
  unfold Csr.row at he
  split at he
  · exact h.cols_ok _ (List.of_mem_zip (List.mem_of_mem_drop (List.mem_of_mem_take he))).1
  · simp at he

theorem Csr.mem_column {α : Type} {A : Csr α} {j : Int} {e : Int × α} (he : e ∈ A.column j) : 0 ≤ e.1 ∧ e.1 < A.rows := by
  unfold Csr.column at he
  obtain ⟨i, hi, he⟩ := List.mem_flatMap.1 he
  obtain ⟨_, _, rfl⟩ := List.mem_map.1 he
  unfold iota at hi
  obtain ⟨k, hk, rfl⟩ := List.mem_map.1 hi
  have := List.mem_range.1 hk
  refine ⟨Int.natCast_nonneg k, ?_⟩
  show (k : Int) < _
  omega

/-! ## Which conversions are made -/

/-- **C109.**  For any element types, `Mult(x, y)` leaves in element `i` the products of row `i`, added one by one in storage order to a
variable of the result's type: a conversion to that type happens at every addition. -/
theorem C109_mult [Zero U] [Zero V] (m : Mix T U V) (A : Csr T) (hA : A.WF) (x : List U) (y : List V)
    (hx : (x.length : Int) = A.cols) (hy : (y.length : Int) = A.rows) :
    ∃ y', A.multM m x y = .ok y' ∧ VecIs y' A.rows (fun i => m.sumUp (A.rowFactors x i)) := by
  let _i := MixVal.add m
  obtain ⟨w, hw, hw'⟩ := C103_mult (A.withData (MixVal.t : T → MixVal T U V)) (Csr.withData_wf hA _) (x.map MixVal.u) (y.map MixVal.v)
    (by simpa [Csr.withData] using hx) (by simpa [Csr.withData] using hy)
  have hs := Csr.multM_sim m A x y
  rw [hw] at hs
  cases hr : A.multM m x y with
  | error e => rw [hr] at hs; cases hs
  | ok z =>
    rw [hr] at hs
    obtain ⟨w', hw2, hrel⟩ := hs
    obtain rfl := Except.ok.inj hw2
    refine ⟨z, rfl, (hrel.vecIs hw').imp ?_⟩
    intro i _ _
    rw [Csr.row_withData, List.map_map, ← MixVal.addUp_val m, Csr.rowFactors, List.map_map]
    dsimp only
    congr 2
    apply List.map_congr_left
    intro e he
    have := hA.mem_row he
    show MixVal.t e.2 * vecAt _ e.1 = _
    rw [vecAt_u this.1 (by omega)]
    rfl

/-- **C109.**  The same for `MultAT(x, y)` and the columns, from the top row down. -/
theorem C109_multAT [Zero U] [Zero V] (m : Mix T U V) (A : Csr T) (hA : A.WF) (x : List U) (y : List V)
    (hx : (x.length : Int) = A.rows) (hy : (y.length : Int) = A.cols) :
    ∃ y', A.multATM m x y = .ok y' ∧ VecIs y' A.cols (fun j => m.sumUp (A.colFactors x j)) := by
  let _i := MixVal.add m
  obtain ⟨w, hw, hw'⟩ := C103_multAT (A.withData (MixVal.t : T → MixVal T U V)) (Csr.withData_wf hA _) (x.map MixVal.u) (y.map MixVal.v)
    (by simpa [Csr.withData] using hx) (by simpa [Csr.withData] using hy)
  have hs := Csr.multATM_sim m A x y
  rw [hw] at hs
  cases hr : A.multATM m x y with
  | error e => rw [hr] at hs; cases hs
  | ok z =>
    rw [hr] at hs
    obtain ⟨w', hw2, hrel⟩ := hs
    obtain rfl := Except.ok.inj hw2
    refine ⟨z, rfl, (hrel.vecIs hw').imp ?_⟩
    intro j _ _
    rw [Csr.column_withData, List.map_map, ← MixVal.addUp_val m, Csr.colFactors, List.map_map]
    dsimp only
    congr 2
    apply List.map_congr_left
    intro e he
    have := Csr.mem_column he
    show MixVal.t e.2 * vecAt _ e.1 = _
    rw [vecAt_u this.1 (by omega)]
    rfl

/-- **C109.**  The forms that return a vector give a vector of the *matrix's* element type, and convert to it at every addition. -/
theorem C109_returning [Zero T] [Zero U] (m : Mix T U T) (A : Csr T) (hA : A.WF) (x : List U) :
    ((x.length : Int) = A.cols → ∃ y, A.multVecM m x = .ok y ∧ VecIs y A.rows (fun i => m.sumUp (A.rowFactors x i))) ∧
    ((x.length : Int) = A.rows → ∃ y, A.multATVecM m x = .ok y ∧ VecIs y A.cols (fun j => m.sumUp (A.colFactors x j))) := by
  have hr := hA.rows_nonneg
  have hc := hA.cols_nonneg
  constructor
  · intro hx
    unfold Csr.multVecM
    rw [mkVec_int hr]
    exact C109_mult m A hA x _ hx (by simp; omega)
  · intro hx
    unfold Csr.multATVecM
    rw [mkVec_int hc]
    exact C109_multAT m A hA x _ hx (by simp; omega)

/-- **C109.**  The product of two sparse matrices: the stored positions do not depend on the types; each entry is the first product that
meets there, converted, to which the others are added one by one. -/
theorem C109_product [Zero V] (m : Mix T U V) (A : Csr T) (B : Csr U) (hA : A.WF) (hB : B.WF) (hdim : B.rows = A.cols) :
    ∃ P, A.multSparseM m B = .ok P ∧ P.WF ∧ P.rows = A.rows ∧ P.cols = B.cols ∧
      ∀ i, 0 ≤ i → i < A.rows → ((P.row i).map Prod.fst).Nodup ∧
        (∀ j, j ∈ (P.row i).map Prod.fst ↔ A.meetFactors B i j ≠ []) ∧ ∀ e ∈ P.row i, e.2 = m.sumOn (A.meetFactors B i e.1) := by
  let _i := MixVal.add m
  obtain ⟨Q, hQ, hwf, h1, h2, h3⟩ := C103_product (A.withData (MixVal.t : T → MixVal T U V)) (B.withData MixVal.u) (Csr.withData_wf hA _)
    (Csr.withData_wf hB _) hdim
  have hs := Csr.multSparseM_sim m A B
  rw [hQ] at hs
  cases hr : A.multSparseM m B with
  | error e => rw [hr] at hs; cases hs
  | ok P =>
    rw [hr] at hs
    obtain ⟨Q', hQ2, hrel⟩ := hs
    obtain rfl := Except.ok.inj hQ2
    have hm : ∀ i j, (A.withData (MixVal.t : T → MixVal T U V)).meets (B.withData MixVal.u) i j
        = (A.meetFactors B i j).map (fun e => (MixVal.t e.1 * MixVal.u e.2 : MixVal T U V)) := by
      intro i j
      unfold Csr.meets Csr.meetFactors
      rw [Csr.row_withData, List.flatMap_map, List.map_flatMap]
      congr 1
      funext a
      rw [Csr.row_withData, List.filter_map, List.map_map, List.map_map]
      rfl
    refine ⟨P, rfl, ?_, ?_, ?_, ?_⟩
    · rw [hrel.1]; exact Csr.withData_wf hwf _
    · rw [hrel.1]; exact h1
    · rw [hrel.1]; exact h2
    · intro i hi0 hi1
      obtain ⟨a, b, c⟩ := h3 i hi0 hi1
      have hrow : P.row i = (Q.row i).map (fun e => (e.1, e.2.val m)) := by rw [hrel.1, Csr.row_withData]
      have hfst : (P.row i).map Prod.fst = (Q.row i).map Prod.fst := by rw [hrow, List.map_map]; rfl
      refine ⟨by rw [hfst]; exact a, ?_, ?_⟩
      · intro j
        rw [hfst, b j, hm, ne_eq, List.map_eq_nil_iff]
      · intro e he
        rw [hrow] at he
        obtain ⟨q, hq, rfl⟩ := List.mem_map.1 he
        dsimp only
        rw [c q hq, hm]
        exact MixVal.addOn_val m _

/-- **C109.**  With one type these are the functions of the other models. -/
theorem C109_one {α : Type} [Zero α] [Add α] [Mul α] (A B : Csr α) (x y : List α) :
    A.multM Mix.one x y = A.mult x y ∧ A.multATM Mix.one x y = A.multAT x y ∧ A.multSparseM Mix.one B = A.multSparse B :=
  ⟨rfl, rfl, rfl⟩

/-! ## Results of type `int` -/

theorem trunc_int (z : Int) : trunc (z : ℚ) = z := by
  unfold trunc
  split <;> simp

theorem abs_trunc_sub_lt (q : ℚ) : |(trunc q : ℚ) - q| < 1 := by
  unfold trunc
  split
  · have h1 := Int.floor_le q
    have h2 := Int.lt_floor_add_one q
    rw [abs_lt]
    constructor <;> linarith
  · have h1 := Int.le_ceil q
    have h2 := Int.ceil_lt_add_one q
    rw [abs_lt]
    constructor <;> linarith

theorem trunc_small {q : ℚ} (h : |q| < 1) : trunc q = 0 := by
  rw [abs_lt] at h
  unfold trunc
  split
  · rw [Int.floor_eq_iff]
    constructor
    · push_cast; linarith
    · push_cast; linarith
  · rw [Int.ceil_eq_iff]
    constructor
    · push_cast; linarith
    · push_cast; linarith

variable (φ : T → ℚ) (ψ : U → ℚ)

theorem exactSum_cons (e : T × U) (l : List (T × U)) : exactSum φ ψ (e :: l) = φ e.1 * ψ e.2 + exactSum φ ψ l := rfl

theorem foldl_toInt_error (l : List (T × U)) (s : Int) (q : ℚ) (n : ℚ) (h : |(s : ℚ) - q| < n) :
    |((l.foldl (fun s e => (Mix.toInt φ ψ).acc s e.1 e.2) s : Int) : ℚ) - (q + exactSum φ ψ l)| < n + l.length := by
  induction l generalizing s q n with
  | nil => simpa [exactSum] using h
  | cons e l ih =>
    rw [List.foldl_cons, exactSum_cons, ← add_assoc, List.length_cons]
    have h1 := abs_trunc_sub_lt (s + φ e.1 * ψ e.2)
    have h2 : |(((Mix.toInt φ ψ).acc s e.1 e.2 : Int) : ℚ) - (q + φ e.1 * ψ e.2)| < n + 1 := by
      show |((trunc (s + φ e.1 * ψ e.2) : Int) : ℚ) - _| < _
      rw [abs_lt] at h h1 ⊢
      constructor <;> linarith [h.1, h.2, h1.1, h1.2]
    have h3 := ih _ _ _ h2
    push_cast
    rw [show n + ((l.length : ℚ) + 1) = n + 1 + l.length by ring]
    exact h3

theorem toInt_first_error (e : T × U) : |(((Mix.toInt φ ψ).set e.1 e.2 : Int) : ℚ) - φ e.1 * ψ e.2| < 1 := abs_trunc_sub_lt _

theorem sumOn_toInt_error (l : List (T × U)) (hl : l ≠ []) : |(((Mix.toInt φ ψ).sumOn l : Int) : ℚ) - exactSum φ ψ l| < l.length := by
  cases l with
  | nil => exact absurd rfl hl
  | cons e l =>
    have := foldl_toInt_error φ ψ l _ _ 1 (toInt_first_error φ ψ e)
    rw [exactSum_cons, List.length_cons]
    push_cast
    rw [add_comm (l.length : ℚ)]
    exact this

theorem sumUp_toInt (l : List (T × U)) : (Mix.toInt φ ψ).sumUp l = (Mix.toInt φ ψ).sumOn l := by
  cases l with
  | nil => rfl
  | cons e l =>
    show List.foldl _ ((Mix.toInt φ ψ).acc 0 e.1 e.2) l = List.foldl _ ((Mix.toInt φ ψ).set e.1 e.2) l
    congr 1
    show trunc (((0 : Int) : ℚ) + _) = trunc _
    rw [Int.cast_zero, zero_add]

theorem foldl_toInt_exact (l : List (T × U)) (s : Int) (h : ∀ e ∈ l, ∃ z : Int, φ e.1 * ψ e.2 = z) :
    ((l.foldl (fun s e => (Mix.toInt φ ψ).acc s e.1 e.2) s : Int) : ℚ) = s + exactSum φ ψ l := by
  induction l generalizing s with
  | nil => simp [exactSum]
  | cons e l ih =>
    rw [List.foldl_cons, exactSum_cons, ih _ (fun e he => h e (by simp [he])), ← add_assoc]
    obtain ⟨z, hz⟩ := h e (by simp)
    congr 1
    show ((trunc (s + φ e.1 * ψ e.2) : Int) : ℚ) = _
    rw [hz, ← Int.cast_add, trunc_int]

/-- **C109.**  With an `int` result each element is wrong by less than the number of products in it. -/
theorem C109_int_error [Zero U] (A : Csr T) (hA : A.WF) (x : List U) (y : List Int)
    (hx : (x.length : Int) = A.cols) (hy : (y.length : Int) = A.rows) :
    ∃ y', A.multM (Mix.toInt φ ψ) x y = .ok y' ∧ (y'.length : Int) = A.rows ∧ ∀ i, 0 ≤ i → i < A.rows →
      ∃ z, rd y' i = .ok z ∧ |(z : ℚ) - exactSum φ ψ (A.rowFactors x i)| ≤ (A.row i).length ∧
        (A.row i ≠ [] → |(z : ℚ) - exactSum φ ψ (A.rowFactors x i)| < (A.row i).length) := by
  obtain ⟨y', h1, h2⟩ := C109_mult (Mix.toInt φ ψ) A hA x y hx hy
  refine ⟨y', h1, h2.length_eq, fun i h0 h3 => ⟨_, h2.get_eq i h0 h3, ?_⟩⟩
  have hlen : (A.rowFactors x i).length = (A.row i).length := by simp [Csr.rowFactors]
  have key : A.row i ≠ [] → |(((Mix.toInt φ ψ).sumUp (A.rowFactors x i) : Int) : ℚ) - exactSum φ ψ (A.rowFactors x i)| < (A.row i).length := by
    intro hne
    rw [sumUp_toInt, ← hlen]
    exact sumOn_toInt_error φ ψ _ (by simpa [Csr.rowFactors] using hne)
  refine ⟨?_, key⟩
  by_cases hne : A.row i = []
  · simp [Csr.rowFactors, hne, exactSum, Mix.sumUp]
  · exact (key hne).le

/-- **C109.**  It is exact where all products are whole numbers. -/
theorem C109_int_exact [Zero U] (A : Csr T) (hA : A.WF) (x : List U) (y : List Int)
    (hx : (x.length : Int) = A.cols) (hy : (y.length : Int) = A.rows) :
    ∃ y', A.multM (Mix.toInt φ ψ) x y = .ok y' ∧ ∀ i, 0 ≤ i → i < A.rows → (∀ e ∈ A.row i, ∃ z : Int, φ e.2 * ψ (vecAt x e.1) = z) →
      ∃ z, rd y' i = .ok z ∧ (z : ℚ) = exactSum φ ψ (A.rowFactors x i) := by
  obtain ⟨y', h1, h2⟩ := C109_mult (Mix.toInt φ ψ) A hA x y hx hy
  refine ⟨y', h1, fun i h0 h3 hz => ⟨_, h2.get_eq i h0 h3, ?_⟩⟩
  unfold Mix.sumUp
  rw [foldl_toInt_exact φ ψ _ _ (by
    intro e he
    obtain ⟨a, ha, rfl⟩ := List.mem_map.1 he
    exact hz a ha)]
  simp

/-- **C109.**  With a `double` result it is the sum. -/
theorem C109_double [Zero U] (A : Csr T) (hA : A.WF) (x : List U) (y : List ℚ)
    (hx : (x.length : Int) = A.cols) (hy : (y.length : Int) = A.rows) :
    ∃ y', A.multM (Mix.toDouble φ ψ) x y = .ok y' ∧ VecIs y' A.rows (fun i => exactSum φ ψ (A.rowFactors x i)) := by
  obtain ⟨y', h1, h2⟩ := C109_mult (Mix.toDouble φ ψ) A hA x y hx hy
  refine ⟨y', h1, h2.imp (fun i _ _ => ?_)⟩
  have : ∀ (l : List (T × U)) (s : ℚ), l.foldl (fun s e => (Mix.toDouble φ ψ).acc s e.1 e.2) s = s + exactSum φ ψ l := by
    intro l
    induction l with
    | nil => intro s; simp [exactSum]
    | cons e l ih =>
      intro s
      rw [List.foldl_cons, ih, exactSum_cons, ← add_assoc]
      rfl
  unfold Mix.sumUp
  rw [this, zero_add]

/-- **C109.**  The product of sparse matrices with an `int` result (`A.Mult<double, int>(B)`): wrong by less than the number of products
that meet, exact where these are whole numbers. -/
theorem C109_product_int (A : Csr T) (B : Csr U) (hA : A.WF) (hB : B.WF) (hdim : B.rows = A.cols) :
    ∃ P, A.multSparseM (Mix.toInt φ ψ) B = .ok P ∧ ∀ i, 0 ≤ i → i < A.rows → ∀ e ∈ P.row i,
      |(e.2 : ℚ) - exactSum φ ψ (A.meetFactors B i e.1)| < (A.meetFactors B i e.1).length ∧
      ((∀ f ∈ A.meetFactors B i e.1, ∃ z : Int, φ f.1 * ψ f.2 = z) → (e.2 : ℚ) = exactSum φ ψ (A.meetFactors B i e.1)) := by
  obtain ⟨P, h1, -, -, -, h2⟩ := C109_product (Mix.toInt φ ψ) A B hA hB hdim
  refine ⟨P, h1, fun i h0 h3 e he => ?_⟩
  obtain ⟨-, b, c⟩ := h2 i h0 h3
  have hne := (b e.1).1 (List.mem_map.2 ⟨e, he, rfl⟩)
  rw [c e he]
  refine ⟨sumOn_toInt_error φ ψ _ hne, fun hz => ?_⟩
  rw [← sumUp_toInt]
  unfold Mix.sumUp
  rw [foldl_toInt_exact φ ψ _ _ hz]
  simp

/-- **C109.**  The same for the transposed product with an `int` result. -/
theorem C109_int_errorAT [Zero U] (A : Csr T) (hA : A.WF) (x : List U) (y : List Int)
    (hx : (x.length : Int) = A.rows) (hy : (y.length : Int) = A.cols) :
    ∃ y', A.multATM (Mix.toInt φ ψ) x y = .ok y' ∧ (y'.length : Int) = A.cols ∧ ∀ j, 0 ≤ j → j < A.cols →
      ∃ z, rd y' j = .ok z ∧ |(z : ℚ) - exactSum φ ψ (A.colFactors x j)| ≤ (A.column j).length ∧
        ((∀ e ∈ A.column j, ∃ z : Int, φ e.2 * ψ (vecAt x e.1) = z) → (z : ℚ) = exactSum φ ψ (A.colFactors x j)) := by
  obtain ⟨y', h1, h2⟩ := C109_multAT (Mix.toInt φ ψ) A hA x y hx hy
  refine ⟨y', h1, h2.length_eq, fun j h0 h3 => ⟨_, h2.get_eq j h0 h3, ?_, fun hz => ?_⟩⟩
  · have hlen : (A.colFactors x j).length = (A.column j).length := by simp [Csr.colFactors]
    by_cases hne : A.column j = []
    · simp [Csr.colFactors, hne, exactSum, Mix.sumUp]
    · rw [sumUp_toInt, ← hlen]
      exact (sumOn_toInt_error φ ψ _ (by simpa [Csr.colFactors] using hne)).le
  · unfold Mix.sumUp
    rw [foldl_toInt_exact φ ψ _ _ (by
      intro e he
      obtain ⟨a, ha, rfl⟩ := List.mem_map.1 he
      exact hz a ha)]
    simp

/-- A matrix with one row of ones. -/
def rowOfOnes (n : Nat) : Csr Int := ⟨1, n, [0, n], iota n, List.replicate n 1⟩

theorem rowOfOnes_wf (n : Nat) : (rowOfOnes n).WF := by
  refine ⟨Int.zero_le_ofNat 1, Int.natCast_nonneg n, rfl, rfl, ?_, ?_, ?_, ?_⟩
  · simp [rowOfOnes]
  · simp [rowOfOnes]
  · simp [rowOfOnes, iota]
  · intro c hc
    unfold rowOfOnes iota at hc
    obtain ⟨k, hk, rfl⟩ := List.mem_map.1 hc
    have := List.mem_range.1 hk
    refine ⟨Int.natCast_nonneg k, ?_⟩
    show (k : Int) < (n : Int)
    omega

theorem rowOfOnes_row (n : Nat) : (rowOfOnes n).row 0 = (iota n).map (fun c => (c, 1)) := by
  show (((iota n).zip (List.replicate n 1)).drop (Int.toNat 0)).take ((n : Int) - 0).toNat = _
  rw [show ((n : Int) - 0).toNat = n by omega]
  apply List.ext_getElem
  · simp [iota]
  · intro k h1 h2
    simp [iota]

/-- **C109.**  No smaller bound holds: a row of `n` ones times a vector of `1 - 1/k` gives 0, not `n (1 - 1/k)`. -/
theorem C109_int_worst (n k : Nat) (hk : 0 < k) :
    ∃ y, (rowOfOnes n).multVecM Mix.intDouble (List.replicate n (1 - 1 / (k : ℚ))) = .ok y ∧ rd y 0 = .ok 0 ∧
      exactSum (fun a : Int => (a : ℚ)) id ((rowOfOnes n).rowFactors (List.replicate n (1 - 1 / (k : ℚ))) 0) = n * (1 - 1 / (k : ℚ)) := by
  obtain ⟨y, h1, h2⟩ := (C109_returning Mix.intDouble (rowOfOnes n) (rowOfOnes_wf n) (List.replicate n (1 - 1 / (k : ℚ)))).1 (by simp [rowOfOnes])
  have hf : (rowOfOnes n).rowFactors (List.replicate n (1 - 1 / (k : ℚ))) 0 = List.replicate n ((1 : Int), (1 - 1 / (k : ℚ))) := by
    unfold Csr.rowFactors
    rw [rowOfOnes_row, List.map_map, List.eq_replicate_iff]
    refine ⟨by simp [iota], fun b hb => ?_⟩
    obtain ⟨c, hc, rfl⟩ := List.mem_map.1 hb
    unfold iota at hc
    obtain ⟨j, hj, rfl⟩ := List.mem_map.1 hc
    have := List.mem_range.1 hj
    show ((1 : Int), vecAt _ ((j : Nat) : Int)) = _
    rw [vecAt_nat _ j (by simpa using this), List.getElem_replicate]
  refine ⟨y, h1, ?_, ?_⟩
  · rw [h2.get_eq 0 (Int.le_refl 0) Int.zero_lt_one, hf]
    congr 1
    have hq : |(1 - 1 / (k : ℚ))| < 1 := by
      have h1 : (1 : ℚ) ≤ k := by exact_mod_cast hk
      have h2 : 0 < 1 / (k : ℚ) := by positivity
      have h3 : 1 / (k : ℚ) ≤ 1 := by rw [div_le_one (by linarith)]; exact h1
      rw [abs_lt]
      constructor <;> linarith
    have : ∀ n : Nat, (List.replicate n ((1 : Int), (1 - 1 / (k : ℚ)))).foldl (fun s e => Mix.intDouble.acc s e.1 e.2) 0 = 0 := by
      intro n
      induction n with
      | zero => rfl
      | succ n ih =>
        rw [List.replicate_succ, List.foldl_cons]
        have : Mix.intDouble.acc 0 1 (1 - 1 / (k : ℚ)) = 0 := by
          show trunc (((0 : Int) : ℚ) + ((1 : Int) : ℚ) * (1 - 1 / (k : ℚ))) = 0
          rw [Int.cast_zero, zero_add, Int.cast_one, one_mul]
          exact trunc_small hq
        rw [this]
        exact ih
    exact this n
  · rw [hf]
    unfold exactSum
    simp

/-- The hypotheses hold for a matrix that is not trivial: 2 by 2 with three entries. -/
example : (⟨2, 2, [0, 2, 3], [0, 1, 1], [1, 1, 2]⟩ : Csr Int).WF := by decide

/-- **C109.**  So for an `int` matrix the two forms of the product differ: `Mult(x)` returns 0 where `Mult(x, y)` gives 1. -/
theorem C109_forms_false : (⟨1, 2, [0, 2], [0, 1], [1, 1]⟩ : Csr Int).multVecM Mix.intDouble [1 / 2, 1 / 2] = .ok [0] ∧
    (⟨1, 2, [0, 2], [0, 1], [1, 1]⟩ : Csr Int).multM Mix.intDoubleDouble [1 / 2, 1 / 2] [7] = .ok [1] := by decide +kernel

/-- **C109.**  With an `int` result the order of the stored entries matters: the two matrices differ only in it. -/
theorem C109_order_false : (⟨1, 2, [0, 2], [0, 1], [3, -1]⟩ : Csr Int).multVecM Mix.intDouble [1 / 2, 1 / 2] = .ok [0] ∧
    (⟨1, 2, [0, 2], [1, 0], [-1, 3]⟩ : Csr Int).multVecM Mix.intDouble [1 / 2, 1 / 2] = .ok [1] := by decide +kernel

/-- **C109.**  `(A B) x` and `A (B x)` differ even if `x` is whole, when the product of the matrices has type `int`. -/
theorem C109_assoc_false : ∃ P, (⟨1, 1, [0, 1], [0], [1 / 2]⟩ : Csr ℚ).multSparseM Mix.doubleInt (⟨1, 1, [0, 1], [0], [1]⟩ : Csr ℚ) = .ok P ∧
    P.multM Mix.intDoubleDouble [2] [0] = .ok [0] ∧ (⟨1, 1, [0, 1], [0], [1]⟩ : Csr ℚ).multVec [2] = .ok [2] ∧
    (⟨1, 1, [0, 1], [0], [1 / 2]⟩ : Csr ℚ).multVec [2] = .ok [1] := ⟨⟨1, 1, [0, 1], [0], [0]⟩, by decide +kernel⟩

/-! ## Conversions of matrices -/

section
variable {T U : Type}

/-- **C109.**  `Transpose<U>()` is the transpose of the matrix with its values converted. -/
theorem C109_transpose [Zero U] (conv : T → U) (A : Csr T) : A.transposeM conv = (A.withData conv).transpose := by
  unfold Csr.transposeM Csr.transpose
  rw [show (A.withData conv).data.length = A.data.length by simp [Csr.withData]]
  have hb : ∀ (i j : Int) (out : List Int × List Int × List U),
      (do
        let row ← rd A.indices j
        let val ← rd A.data j
        let k ← rd out.1 row
        let ix ← wr out.2.1 k i
        let dt ← wr out.2.2 k (conv val)
        let p ← wr out.1 row (k + 1)
        .ok (p, ix, dt) : Res (List Int × List Int × List U)) =
      (do
        let row ← rd (A.withData conv).indices j
        let val ← rd (A.withData conv).data j
        let k ← rd out.1 row
        let ix ← wr out.2.1 k i
        let dt ← wr out.2.2 k val
        let p ← wr out.1 row (k + 1)
        .ok (p, ix, dt) : Res (List Int × List Int × List U)) := by
    intro i j out
    have e1 : rd (A.withData conv).data j = (rd A.data j).map conv := rd_map conv A.data j
    have e2 : rd (A.withData conv).indices j = rd A.indices j := rfl
    simp only [e1, e2]
    cases rd A.indices j with
    | error e => rfl
    | ok row =>
      cases rd A.data j with
      | error e => rfl
      | ok v => rfl
  simp only [hb]
  rfl

/-- **C109.**  `CooMatrix<T>::ToSparse<U>()` converts the values first, then adds them up in `U`. -/
theorem C109_coo [Zero U] [Add U] (conv : T → U) (C : Coo T) : C.toSparseM conv = (C.withData conv).toSparse := by
  unfold Coo.toSparseM Coo.toSparse
  have e1 : (C.withData conv).findSize = C.findSize := by
    unfold Coo.findSize Coo.withData
    rw [List.foldl_map]
  have e2 : (C.withData conv).entries.isEmpty = C.entries.isEmpty := by
    unfold Coo.withData
    simp
  rw [e1, e2]
  unfold Coo.withData
  simp only [List.foldlM_map]
  rfl

theorem tripleCoef_conv [AddMonoid U] (conv : T → U) (l : List (Int × Int × T)) (i j : Int) :
    tripleCoef (l.map (fun e => (e.1, e.2.1, conv e.2.2))) i j = ((l.filter (fun e => e.1 = i ∧ e.2.1 = j)).map (fun e => conv e.2.2)).sum := by
  unfold tripleCoef
  rw [List.filter_map, List.map_map]
  rfl

theorem Coo.withData_wf {C : Coo T} (h : C.WF) (conv : T → U) : (C.withData conv).WF := by
  refine ⟨h.rows_nonneg, h.cols_nonneg, ?_, ?_⟩
  · intro e he
    obtain ⟨e0, h0, rfl⟩ := List.mem_map.1 he
    exact h.entry_nonneg e0 h0
  · intro hs e he
    obtain ⟨e0, h0, rfl⟩ := List.mem_map.1 he
    exact h.entry_lt hs e0 h0

/-- **C109.**  So the coefficients of `ToSparse<U>()` are the sums of the converted values. -/
theorem C109_coo_coef [AddMonoid U] (conv : T → U) (C : Coo T) (hC : C.WF) :
    ∃ A, C.toSparseM conv = .ok A ∧ A.WF ∧ A.rows = C.findSize.1 ∧ A.cols = C.findSize.2 ∧
      ∀ i j, A.coef i j = ((C.entries.filter (fun e => e.1 = i ∧ e.2.1 = j)).map (fun e => conv e.2.2)).sum := by
  obtain ⟨A, h1, h2, h3, h4, -, h5⟩ := C17_toSparse (C.withData conv) (Coo.withData_wf hC conv)
  have e1 : (C.withData conv).findSize = C.findSize := by
    unfold Coo.findSize Coo.withData
    rw [List.foldl_map]
  rw [e1] at h3 h4
  refine ⟨A, by rw [C109_coo, h1], h2, h3, h4, fun i j => ?_⟩
  rw [h5]
  exact tripleCoef_conv conv _ i j

theorem foldl_mergeIn_ord {α : Type} [Zero α] [Add α] (l : List (Int × α)) (hl : l.Pairwise (fun a b => a.1 ≤ b.1)) :
    (∀ j, j ∈ (l.foldl mergeIn []).map Prod.fst ↔ valuesAt l j ≠ []) ∧
    ∀ e ∈ l.foldl mergeIn [], e.2 = addOn (valuesAt l e.1) := by
  have hva : ∀ (l : List (Int × α)) j, valuesAt l j ≠ [] ↔ ∃ b ∈ l, b.1 = j := by
    intro l j
    unfold valuesAt
    rw [ne_eq, List.map_eq_nil_iff, List.filter_eq_nil_iff]
    push Not
    simp
  have hcc : ∀ (l : List (Int × α)) (b : Int × α) j, valuesAt (l ++ [b]) j = if b.1 = j then valuesAt l j ++ [b.2] else valuesAt l j := by
    intro l b j
    unfold valuesAt
    rw [List.filter_append, List.map_append]
    by_cases h : b.1 = j <;> simp [h]
  induction l using List.reverseRecOn with
  | nil => simp [valuesAt]
  | append_singleton l b ih =>
    rw [List.pairwise_append] at hl
    obtain ⟨ih1, ih2⟩ := ih hl.1
    have hle : ∀ a ∈ l, a.1 ≤ b.1 := fun a ha => hl.2.2 a ha b (by simp)
    have hsorted := foldl_mergeIn_sorted l [] (by simp) hl.1 (by simp)
    have hD := foldl_mergeIn_cols l [] (fun c => c ≤ b.1) (by simp) hle
    rw [List.foldl_append, List.foldl_cons, List.foldl_nil]
    generalize l.foldl mergeIn [] = D at *
    rcases List.eq_nil_or_concat' D with rfl | ⟨D, ⟨c, v⟩, rfl⟩
    · have hnil : l = [] := by
        by_contra hne
        obtain ⟨a, ha⟩ := List.exists_mem_of_ne_nil l hne
        have := (ih1 a.1).2 ((hva l a.1).2 ⟨a, ha, rfl⟩)
        simp at this
      subst hnil
      rw [mergeIn_nil]
      constructor
      · intro j
        rw [hva]
        simp [eq_comm]
      · intro e he
        rw [List.mem_singleton] at he
        subst he
        rw [hcc]
        simp [valuesAt, addOn]
    · obtain ⟨d, w⟩ := b
      rw [List.pairwise_append] at hsorted
      have hlt : ∀ a ∈ D, a.1 < c := fun a ha => hsorted.2.2 a ha (c, v) (by simp)
      by_cases h : c = d
      · subst h
        rw [mergeIn_same]
        constructor
        · intro j
          have := ih1 j
          rw [hcc]
          simp only [List.map_append, List.map_cons, List.map_nil, List.mem_append, List.mem_singleton] at this ⊢
          rw [this]
          split
          · next h' =>
            rw [← h']
            constructor
            · intro _; simp
            · intro _; exact (hva l c).2 ((hva l c).1 ((ih1 c).1 (by simp)))
          · rfl
        · intro e he
          rw [List.mem_append, List.mem_singleton] at he
          rw [hcc]
          rcases he with he | rfl
          · rw [if_neg (by have := hlt e he; intro hc; dsimp only at hc; omega)]
            exact ih2 e (by simp [he])
          · rw [if_pos rfl, addOn_concat ((ih1 c).1 (by simp))]
            show v + w = _
            rw [← ih2 (c, v) (by simp)]
      · rw [mergeIn_diff _ _ _ h]
        have hcd : c < d := lt_of_le_of_ne (hD (c, v) (by simp)) h
        have hnew : valuesAt l d = [] := by
          by_contra hne
          have := (ih1 d).2 hne
          rw [List.mem_map] at this
          obtain ⟨a, ha, had⟩ := this
          rw [List.mem_append, List.mem_singleton] at ha
          rcases ha with ha | rfl
          · have := hlt a ha; omega
          · exact h had
        constructor
        · intro j
          rw [hcc, List.map_append, List.mem_append, ih1 j]
          split
          · next h' => rw [← h']; simp
          · next h' =>
            constructor
            · rintro (h'' | h'')
              · exact h''
              · exact absurd (List.mem_singleton.1 h'').symm h'
            · exact Or.inl
        · intro e he
          rw [List.mem_append, List.mem_singleton] at he
          rw [hcc]
          rcases he with he | rfl
          · have hne : ¬ d = e.1 := by
              have := ih1 d
              rw [hnew] at this
              intro hc
              exact (this.1 (List.mem_map.2 ⟨e, he, hc.symm⟩)) rfl
            rw [if_neg hne]
            exact ih2 e he
          · rw [if_pos rfl]
            dsimp only
            rw [hnew]
            rfl

/-- The conversions of `LilMatrix<T>::ToSparse<U>()` as a product with nothing. -/
def lilMix (conv : T → U) (acc : U → T → U) : Mix T Unit U := ⟨fun a _ => conv a, fun c a _ => acc c a⟩

/-- A value of the list. -/
def lilVal (a : T) : MixVal T Unit U := .p a ()

/-- A row of the list. -/
def lilRow (r : List (Int × T)) : List (Int × MixVal T Unit U) := r.map (fun e => (e.1, lilVal e.2))

theorem lilRow_inj {r r' : List (Int × T)} (h : (lilRow r : List (Int × MixVal T Unit U)) = lilRow r') : r = r' := by
  refine List.map_injective_iff.2 ?_ h
  rintro ⟨i, a⟩ ⟨i', a'⟩ h
  simp only [lilVal, Prod.mk.injEq, MixVal.p.injEq] at h
  rw [h.1, h.2.1]

open Classical in
/-- The sort of the list, on the values. -/
noncomputable def lilSort (sort : List (Int × T) → List (Int × T)) (r : List (Int × MixVal T Unit U)) : List (Int × MixVal T Unit U) :=
  if h : ∃ r0, r = lilRow r0 then lilRow (sort h.choose) else r.mergeSort (fun a b => decide (a.1 ≤ b.1))

theorem lilSort_row (sort : List (Int × T) → List (Int × T)) (r : List (Int × T)) :
    lilSort sort (lilRow r : List (Int × MixVal T Unit U)) = lilRow (sort r) := by
  have h : ∃ r0, (lilRow r : List (Int × MixVal T Unit U)) = lilRow r0 := ⟨r, rfl⟩
  unfold lilSort
  rw [dif_pos h, ← lilRow_inj h.choose_spec]

theorem lilSort_isSort {sort : List (Int × T) → List (Int × T)} (hs : IsRowSort sort) :
    IsRowSort (lilSort sort : List (Int × MixVal T Unit U) → _) := by
  intro l
  unfold lilSort
  split
  · next h =>
    have h1 := hs h.choose
    constructor
    · conv_rhs => rw [h.choose_spec]
      exact h1.1.map _
    · unfold lilRow
      rw [List.pairwise_map]
      exact h1.2
  · refine ⟨List.mergeSort_perm _ _, ?_⟩
    have := List.pairwise_mergeSort (le := fun (a b : Int × MixVal T Unit U) => decide (a.1 ≤ b.1))
      (fun a b c => by simp only [decide_eq_true_eq]; omega) (fun a b => by simp only [Bool.or_eq_true, decide_eq_true_eq]; omega) l
    refine this.imp ?_
    intro a b h
    simpa using h

/-- The list matrix with its values remembered. -/
def lilEmb (L : Lil T) : Lil (MixVal T Unit U) := ⟨L.rows, L.cols, L.sizeSet, L.entries.map lilRow⟩

theorem Lil.toSparseM_sim [Zero U] (conv : T → U) (acc : U → T → U) (sort : List (Int × T) → List (Int × T)) (L : Lil T) (hL : L.WF) :
    Sim (fun a b => MixRelM (lilMix conv acc) a.1 b.1 ∧ a.2 = { L with entries := L.entries.map sort }) (L.toSparseM conv acc sort)
      (let _i := MixVal.add (lilMix conv acc); (lilEmb L : Lil (MixVal T Unit U)).toSparse (lilSort sort)) := by
  let _i := MixVal.add (lilMix conv acc)
  show Sim _ _ (Lil.toSparse _ _)
  unfold Lil.toSparseM Lil.toSparse
  have e1 : (lilEmb L : Lil (MixVal T Unit U)).findSize = L.findSize := by
    unfold Lil.findSize lilEmb
    rw [if_pos hL.sized, if_pos hL.sized]
  have e2 : (lilEmb L : Lil (MixVal T Unit U)).entries.length = L.entries.length := by simp [lilEmb]
  have e3 : (lilEmb L : Lil (MixVal T Unit U)).entries.map (lilSort sort) = (L.entries.map sort).map lilRow := by
    unfold lilEmb
    rw [List.map_map, List.map_map]
    apply List.map_congr_left
    intro r _
    exact lilSort_row sort r
  rw [e1, e2, e3]
  split
  · next h0 =>
    refine Sim.bind (R := MixRelM (lilMix conv acc)) ?_ (fun A B h => Sim.ok ⟨h, ?_⟩)
    · unfold Csr.zero
      exact Sim.same (fun _ _ => Sim.same (fun _ _ => Sim.same (fun p _ => Sim.ok ⟨rfl, by simp⟩)))
    · rw [List.length_eq_zero_iff] at h0
      obtain ⟨a, b, c, d⟩ := L
      dsimp only at h0
      subst h0
      rfl
  · refine Sim.same (fun p0 _ => Sim.same (fun p1 _ => ?_))
    rw [List.length_map, List.length_map, List.length_map]
    refine Sim.bind (R := fun (a : List Int × List Int × List U) (b : List Int × List Int × List (MixVal T Unit U)) =>
      a.1 = b.1 ∧ a.2.1 = b.2.1 ∧ MixRel (lilMix conv acc) a.2.2 b.2.2) (forUp_mirror ⟨rfl, rfl, rfl, by simp⟩ ?_) ?_
    · rintro i ⟨p, ix, dt⟩ ⟨p', ix', w⟩ _ _ ⟨h1, h2, h3⟩
      dsimp only at h1 h2 h3
      subst h1 h2
      refine Sim.same (fun cur _ => ?_)
      rw [rd_map lilRow]
      refine Sim.bind (R := fun a b => b = lilRow a) ?_ (fun r r' hr => ?_)
      · cases rd (L.entries.map sort) i with
        | error e => exact rfl
        | ok a => exact ⟨_, rfl, rfl⟩
      · rw [hr]
        unfold lilRow
        rw [List.foldlM_map]
        refine Sim.bind (R := fun (a : List Int × List U) (b : List Int × List (MixVal T Unit U)) => a.1 = b.1 ∧ MixRel (lilMix conv acc) a.2 b.2)
          (foldlM_mirror r ⟨rfl, h3⟩ ?_) (fun a b hab => ?_)
        · rintro e ⟨ix, dt⟩ ⟨ix', w⟩ _ ⟨h1, h2⟩
          dsimp only at h1 h2
          subst h1
          unfold Lil.mergeStepM Lil.mergeStep
          dsimp only
          split
          · rw [show dt.length = w.length by rw [h2.1, List.length_map]]
            refine Sim.bind (h2.rd _) (fun c e' hc => Sim.bind (h2.wr _ (e := MixVal.plus (lilMix conv acc) e' (.p e.2 ())) ?_ trivial)
              (fun d w hd => Sim.ok ⟨rfl, hd⟩))
            show _ = acc (e'.val _) e.2
            rw [hc.1]
          · refine Sim.ok ⟨rfl, ?_, ?_⟩
            · rw [h2.1, List.map_append]
              rfl
            · intro q hq
              rw [List.mem_append, List.mem_singleton] at hq
              rcases hq with hq | rfl
              · exact h2.2 q hq
              · trivial
        · rw [show a.2.length = b.2.length by rw [hab.2.1, List.length_map]]
          exact Sim.same (fun p2 _ => Sim.ok ⟨rfl, hab.1, hab.2⟩)
    · rintro ⟨p, ix, dt⟩ ⟨p', ix', w⟩ ⟨h1, h2, h3⟩
      dsimp only at h1 h2 h3
      subst h1 h2
      exact Sim.bind (Csr.ofArrays_sim (lilMix conv acc) h3) (fun A B h => Sim.ok ⟨h, rfl⟩)

/-- The value `LilMatrix<T>::ToSparse<U>()` makes of several values at one place. -/
def lilSum [Zero U] (conv : T → U) (acc : U → T → U) : List T → U
  | [] => 0
  | a :: l => l.foldl acc (conv a)

/-- **C109.**  `LilMatrix<T>::ToSparse<U>()` converts the first value at a place, but then adds each further value to it before it converts
the sum. -/
theorem C109_lil [Zero U] (conv : T → U) (acc : U → T → U) (sort : List (Int × T) → List (Int × T)) (hsort : IsRowSort sort) (L : Lil T)
    (hL : L.WF) :
    ∃ A L', L.toSparseM conv acc sort = .ok (A, L') ∧ L'.entries = L.entries.map sort ∧ A.WF ∧ A.rows = L.rows ∧ A.cols = L.cols ∧
      ∀ i r, rd L.entries i = .ok r → ((A.row i).map Prod.fst).Pairwise (· < ·) ∧
        (∀ j, j ∈ (A.row i).map Prod.fst ↔ valuesAt r j ≠ []) ∧ ∀ e ∈ A.row i, e.2 = lilSum conv acc (valuesAt (sort r) e.1) := by
  let _i := MixVal.add (lilMix conv acc)
  have hs := Lil.toSparseM_sim conv acc sort L hL
  have hsort' := lilSort_isSort (U := U) hsort
  have hwf' : (lilEmb L : Lil (MixVal T Unit U)).WF := by
    refine ⟨hL.sized, by simpa [lilEmb] using hL.rows_len, hL.cols_nonneg, ?_⟩
    intro r hr e he
    obtain ⟨r0, h0, rfl⟩ := List.mem_map.1 hr
    obtain ⟨e0, h1, rfl⟩ := List.mem_map.1 he
    exact hL.cols_ok r0 h0 e0 h1
  have hrun := Lil.toSparse_eq (lilSort sort) hsort' (lilEmb L : Lil (MixVal T Unit U)) hwf'
  rw [hrun] at hs
  cases hr : L.toSparseM conv acc sort with
  | error e => rw [hr] at hs; cases hs
  | ok q =>
    obtain ⟨A, L'⟩ := q
    rw [hr] at hs
    obtain ⟨q', hq, hrel, hL'⟩ := hs
    obtain rfl := Except.ok.inj hq
    dsimp only at hrel hL'
    have hok : ∀ r ∈ lilRows (lilSort sort) (lilEmb L : Lil (MixVal T Unit U)).entries, ∀ e ∈ r, 0 ≤ e.1 ∧ e.1 < L.cols := by
      intro r hr
      obtain ⟨r0, h0, rfl⟩ := List.mem_map.mp hr
      exact foldl_mergeIn_cols _ _ (fun c => 0 ≤ c ∧ c < L.cols) (by simp)
        (fun e he => hwf'.cols_ok r0 h0 e ((hsort' r0).1.mem_iff.mp he))
    have hwf := Csr.wf_ofRows hL.cols_nonneg hok
    have hlen := hL.rows_len
    refine ⟨A, L', rfl, by rw [hL'], ?_, ?_, ?_, ?_⟩
    · rw [hrel.1]; exact Csr.withData_wf hwf _
    · rw [hrel.1]; simp [Csr.withData, Csr.ofRows, lilRows, lilEmb, hlen]
    · rw [hrel.1]; rfl
    · intro i r hri
      obtain ⟨h0, hri⟩ := rd_eq_ok.1 hri
      have hrow : A.row i = (((lilRow (sort r) : List (Int × MixVal T Unit U)).foldl mergeIn []).map (fun e => (e.1, e.2.val (lilMix conv acc)))) := by
        rw [hrel.1, Csr.row_withData, row_ofRows_getD _ _ h0, List.getD_eq_getElem?_getD]
        unfold lilRows lilEmb
        rw [List.getElem?_map, List.getElem?_map, hri]
        simp only [Option.map_some, Option.getD_some]
        rw [lilSort_row]
      have hfst : (A.row i).map Prod.fst = ((lilRow (sort r) : List (Int × MixVal T Unit U)).foldl mergeIn []).map Prod.fst := by
        rw [hrow, List.map_map]; rfl
      have hpw : (lilRow (sort r) : List (Int × MixVal T Unit U)).Pairwise (fun a b => a.1 ≤ b.1) := by
        unfold lilRow
        rw [List.pairwise_map]
        exact (hsort r).2
      obtain ⟨o1, o2⟩ := foldl_mergeIn_ord _ hpw
      have hva : ∀ j, valuesAt (lilRow (sort r) : List (Int × MixVal T Unit U)) j = (valuesAt (sort r) j).map lilVal := by
        intro j
        unfold valuesAt lilRow
        rw [List.filter_map, List.map_map, List.map_map]
        rfl
      refine ⟨?_, ?_, ?_⟩
      · rw [hfst, List.pairwise_map]
        exact foldl_mergeIn_sorted _ _ (by simp) hpw (by simp)
      · intro j
        rw [hfst, o1 j, hva, ne_eq, List.map_eq_nil_iff]
        unfold valuesAt
        rw [ne_eq, List.map_eq_nil_iff, List.map_eq_nil_iff, List.filter_eq_nil_iff, List.filter_eq_nil_iff]
        simp only [(hsort r).1.mem_iff]
      · intro e he
        rw [hrow] at he
        obtain ⟨q, hq, rfl⟩ := List.mem_map.1 he
        dsimp only
        rw [o2 q hq, hva]
        have : ∀ (l : List T) (s : MixVal T Unit U), ((l.map lilVal).foldl (fun s a => s + a) s).val (lilMix conv acc)
            = l.foldl acc (s.val (lilMix conv acc)) := by
          intro l
          induction l with
          | nil => intro s; rfl
          | cons a l ih =>
            intro s
            rw [List.map_cons, List.foldl_cons, List.foldl_cons]
            exact ih _
        cases valuesAt (sort r) q.1 with
        | nil => rfl
        | cons a l => exact this l _

/-- A list matrix, and a sort that keeps the rows it is given when they are in order. -/
example : (⟨1, 1, true, [[(0, 3 / 2), (0, -1 / 2)]]⟩ : Lil ℚ).WF := by decide

/-- **C109.**  So the same two values at one place, `-1/2` and `3/2`, give 1 as `int` through a coordinate matrix, and 0 or 1 through a list
matrix, depending on which comes first. -/
theorem C109_coo_lil_false :
    (⟨1, 1, true, [(0, 0, -1 / 2), (0, 0, 3 / 2)]⟩ : Coo ℚ).toSparseM trunc = .ok ⟨1, 1, [0, 1], [0], [1]⟩ ∧
    (⟨1, 1, true, [(0, 0, 3 / 2), (0, 0, -1 / 2)]⟩ : Coo ℚ).toSparseM trunc = .ok ⟨1, 1, [0, 1], [0], [1]⟩ ∧
    (⟨1, 1, true, [[(0, -1 / 2), (0, 3 / 2)]]⟩ : Lil ℚ).toSparseM trunc (fun s v => trunc (s + v)) id
      = .ok (⟨1, 1, [0, 1], [0], [1]⟩, ⟨1, 1, true, [[(0, -1 / 2), (0, 3 / 2)]]⟩) ∧
    (⟨1, 1, true, [[(0, 3 / 2), (0, -1 / 2)]]⟩ : Lil ℚ).toSparseM trunc (fun s v => trunc (s + v)) id
      = .ok (⟨1, 1, [0, 1], [0], [0]⟩, ⟨1, 1, true, [[(0, 3 / 2), (0, -1 / 2)]]⟩) := by decide +kernel

/-- **C109.**  Conversion and transposition commute, conversion and assembly do not: 1/2 and 1/2 at one place are 1, but 0 as `int`. -/
theorem C109_assembly_false : (⟨1, 1, true, [(0, 0, 1 / 2), (0, 0, 1 / 2)]⟩ : Coo ℚ).toSparse = .ok ⟨1, 1, [0, 1], [0], [1]⟩ ∧
    (⟨1, 1, true, [(0, 0, 1 / 2), (0, 0, 1 / 2)]⟩ : Coo ℚ).toSparseM trunc = .ok ⟨1, 1, [0, 1], [0], [0]⟩ := by decide +kernel

end

/-! ## Scalars and vectors -/

/-- **C109.**  `A = val` asserts that `val` is not zero before it converts it: an `int` matrix that is set to a number below one in absolute
value passes the assertion and becomes zero. -/
theorem C109_fill (A : Csr Int) (val : ℚ) (h0 : val ≠ 0) (h1 : |val| < 1) :
    A.fillValM trunc val = .ok { A with data := List.replicate A.data.length 0 } := by
  unfold Csr.fillValM
  rw [cassert_true h0, trunc_small h1]
  rfl

/-- Such a number. -/
example : (1 / 2 : ℚ) ≠ 0 ∧ |(1 / 2 : ℚ)| < 1 := by constructor <;> norm_num [abs_lt]

/-- **C109.**  Scaling an `int` matrix by a `double` and dividing by it: each value is wrong by less than one, and exact if the exact value
is whole. -/
theorem C109_scale (A : Csr Int) (val : ℚ) (h0 : val ≠ 0) :
    (∃ B, A.divScaleM (fun (d : Int) (v : ℚ) => trunc (d / v)) val = .ok B ∧ B.indices = A.indices ∧ B.indptr = A.indptr ∧
      List.Forall₂ (fun (b a : Int) => |(b : ℚ) - a / val| < 1 ∧ ∀ z : Int, (a : ℚ) / val = z → b = z) B.data A.data) ∧
    List.Forall₂ (fun (b a : Int) => |(b : ℚ) - a * val| < 1 ∧ ∀ z : Int, (a : ℚ) * val = z → b = z)
      (A.scaleM (fun (d : Int) (v : ℚ) => trunc (d * v)) val).data A.data := by
  constructor
  · refine ⟨{ A with data := A.data.map (fun (d : Int) => trunc ((d : ℚ) / val)) }, ?_, rfl, rfl, ?_⟩
    · unfold Csr.divScaleM
      rw [cassert_true h0]
      rfl
    · rw [List.forall₂_map_left_iff]
      refine List.forall₂_same.2 (fun a _ => ⟨abs_trunc_sub_lt _, fun z hz => ?_⟩)
      rw [hz, trunc_int]
  · unfold Csr.scaleM
    rw [List.forall₂_map_left_iff]
    refine List.forall₂_same.2 (fun a _ => ⟨abs_trunc_sub_lt _, fun z hz => ?_⟩)
    show trunc (a * val) = z
    rw [hz, trunc_int]

/-- **C109.**  Scaling by one half and then by two is not scaling by one. -/
theorem C109_scale_false : ((⟨1, 1, [0, 1], [0], [3]⟩ : Csr Int).scaleM (fun (d : Int) (v : ℚ) => trunc (d * v)) (1 / 2)).scaleM
    (fun (d : Int) (v : ℚ) => trunc (d * v)) 2 = ⟨1, 1, [0, 1], [0], [2]⟩ := by decide +kernel

theorem Vec.updScaledM_run {T D : Type} [Zero T] (upd : T → D → T → T) (x : List T) (alpha : D) (y : List T) (h : y.length = x.length) :
    ∃ z, Vec.updScaledM upd x alpha y = .ok z ∧ VecIs z x.length (fun i => upd (vecAt x i) alpha (vecAt y i)) := by
  unfold Vec.updScaledM
  rw [cassert_true h, ok_bind]
  obtain ⟨z, hz, h1, h2, -⟩ := forUp_inv_nat (n := x.length) (f := fun i x => do
      let b ← vrd y i
      let a ← rd x i
      wr x i (upd a alpha b))
    (fun k z => z.length = x.length ∧ (∀ i : Nat, i < k → i < x.length → rd z i = .ok (upd (vecAt x i) alpha (vecAt y i))) ∧
      ∀ i : Nat, k ≤ i → i < x.length → rd z i = .ok (vecAt x i)) (s := x)
    ⟨rfl, by simp, fun i _ hi => rd_vecAt x (by omega) (by omega)⟩
    (by
      rintro k z hk ⟨h1, h2, h3⟩
      have hy : vrd y (k : Int) = .ok (vecAt y k) := by
        unfold vrd
        rw [cassert_true (by omega), ok_bind, rd_vecAt y (by omega) (by omega)]
      refine ⟨z.set k (upd (vecAt x k) alpha (vecAt y k)), ?_, by simpa using h1, ?_, ?_⟩
      · rw [hy, ok_bind, h3 k (le_refl k) hk, ok_bind, wr_nat (by omega)]
      · intro i hi hi'
        rw [rd_nat (by simpa using by omega), List.getElem_set]
        split
        · next e => rw [e]
        · have := h2 i (by omega) hi'
          rw [rd_nat (by omega)] at this
          exact this
      · intro i hi hi'
        rw [rd_nat (by simpa using by omega), List.getElem_set]
        rw [if_neg (by omega)]
        have := h3 i (by omega) hi'
        rw [rd_nat (by omega)] at this
        exact this)
  refine ⟨z, hz, by rw [h1], fun i h0 hi => ?_⟩
  obtain ⟨k, rfl⟩ : ∃ k : Nat, i = k := ⟨i.toNat, by omega⟩
  exact h2 k (by omega) (by omega)

/-- **C109.**  `x.Add(alpha, y)`, `x.Sub(alpha, y)` and `x.Set(alpha, y)` on `int` vectors take `alpha` as `double`: each element is wrong by
less than one, and exact where the exact value is whole. -/
theorem C109_vector (x y : List Int) (alpha : ℚ) (h : y.length = x.length) :
    ∃ a s t, Vec.updScaledM (fun (a : Int) (r : ℚ) (b : Int) => trunc (a + r * b)) x alpha y = .ok a ∧
      Vec.updScaledM (fun (a : Int) (r : ℚ) (b : Int) => trunc (a - r * b)) x alpha y = .ok s ∧
      Vec.updScaledM (fun (_ : Int) (r : ℚ) (b : Int) => trunc (r * b)) x alpha y = .ok t ∧
      ∀ i : Int, 0 ≤ i → i < x.length → ∃ p q r, rd a i = .ok p ∧ rd s i = .ok q ∧ rd t i = .ok r ∧
        |(p : ℚ) - (vecAt x i + alpha * vecAt y i)| < 1 ∧ |(q : ℚ) - (vecAt x i - alpha * vecAt y i)| < 1 ∧ |(r : ℚ) - alpha * vecAt y i| < 1 ∧
        ∀ z : Int, alpha * vecAt y i = z → p = vecAt x i + z ∧ q = vecAt x i - z ∧ r = z := by
  obtain ⟨a, ha, ha'⟩ := Vec.updScaledM_run (fun (a : Int) (r : ℚ) (b : Int) => trunc (a + r * b)) x alpha y h
  obtain ⟨s, hs, hs'⟩ := Vec.updScaledM_run (fun (a : Int) (r : ℚ) (b : Int) => trunc (a - r * b)) x alpha y h
  obtain ⟨t, ht, ht'⟩ := Vec.updScaledM_run (fun (_ : Int) (r : ℚ) (b : Int) => trunc (r * b)) x alpha y h
  refine ⟨a, s, t, ha, hs, ht, fun i h0 h1 => ⟨_, _, _, ha'.get_eq i h0 h1, hs'.get_eq i h0 h1, ht'.get_eq i h0 h1,
    abs_trunc_sub_lt _, abs_trunc_sub_lt _, abs_trunc_sub_lt _, fun z hz => ?_⟩⟩
  rw [hz]
  refine ⟨?_, ?_, trunc_int z⟩
  · rw [← Int.cast_add, trunc_int]
  · rw [← Int.cast_sub, trunc_int]

/-- **C109.**  Adding one half of a vector twice is not adding the vector. -/
theorem C109_vector_false : ∃ a, Vec.updScaledM (fun (a : Int) (r : ℚ) (b : Int) => trunc (a + r * b)) [0] (1 / 2) [1] = .ok a ∧
    Vec.updScaledM (fun (a : Int) (r : ℚ) (b : Int) => trunc (a + r * b)) a (1 / 2) [1] = .ok [0] ∧
    Vec.updScaledM (fun (a : Int) (r : ℚ) (b : Int) => trunc (a + r * b)) [0] 1 [1] = .ok [1] := ⟨[0], by decide +kernel⟩

end Linalg
