import Verif.Proof.Plain
import Verif.Model.SolverApi
import Verif.Props.Block
import Mathlib.Algebra.Order.Ring.Rat

/-!
# The sequential classes behave as values (C101)
-/

namespace Linalg
open Cpp

variable {α : Type}

/-- **C101**: in every program that constructs, copies, moves, assigns, swaps, destroys and changes sparse matrices, whatever the
constructors and the changes are, each matrix is a value of its own: a copy is equal and independent, a move passes the matrix on and
leaves a `0 × 0` matrix without arrays behind. -/
theorem C101_sparse {A U : Type} (make : A → Res (Csr α)) (update : Csr α → U → Res (Csr α)) (ops : List (LifeStmt A U)) :
    (Csr.cls make update).run ops [] = (plainVals make (fun M => sized M.rows M.cols) ⟨0, 0, [], [], []⟩ update).run ops [] := by
  apply PlainCls.run_eq (Csr.cls make update)
  · intro o
    show Csr.copyCtor o = _
    unfold Csr.copyCtor
    rw [copySizes_eq]
    cases sized o.rows o.cols <;> rfl
  · intro o p; rfl

/-- **C101**: the same for dense matrices; what is left behind is `DenseMatrix()`. -/
theorem C101_dense {A U : Type} (make : A → Res (Dense α)) (update : Dense α → U → Res (Dense α)) (ops : List (LifeStmt A U)) :
    (Dense.cls make update).run ops [] = (plainVals make (fun M => sized M.rows M.cols) Dense.empty update).run ops [] := by
  apply PlainCls.run_eq (Dense.cls make update)
  · intro o
    show Dense.copyCtor o = _
    unfold Dense.copyCtor
    rw [copySizes_eq]
    cases sized o.rows o.cols <;> rfl
  · intro o p; rfl

/-- **C101**: the same for coordinate matrices, if exchanging an indeterminate `bool` just exchanges it; what is left behind has an
indeterminate `size_set_`. -/
theorem C101_coo_partial {A U : Type} (make : A → Res (CooObj α)) (update : CooObj α → U → Res (CooObj α)) (ops : List (LifeStmt A U)) :
    (CooObj.cls make update).run ops [] = (plainVals make (fun M => sized M.rows M.cols) ⟨0, 0, none, []⟩ update).run ops [] := by
  apply PlainCls.run_eq (CooObj.cls make update)
  · intro o
    show CooObj.copyCtor o = _
    unfold CooObj.copyCtor
    rw [copySizes_eq]
    cases sized o.rows o.cols <;> rfl
  · intro o p; rfl

/-- **C101**: the same for list-of-lists matrices. -/
theorem C101_lil_partial {A U : Type} (make : A → Res (LilObj α)) (update : LilObj α → U → Res (LilObj α)) (ops : List (LifeStmt A U)) :
    (LilObj.cls make update).run ops [] = (plainVals make (fun M => sized M.rows M.cols) ⟨0, 0, none, []⟩ update).run ops [] := by
  apply PlainCls.run_eq (LilObj.cls make update)
  · intro o
    show LilObj.copyCtor o = _
    unfold LilObj.copyCtor
    rw [copySizes_eq]
    cases sized o.rows o.cols <;> rfl
  · intro o p; rfl

theorem mapM_copy (row : List (Csr α)) :
    row.mapM Csr.copyCtor = if row.all (fun M => sized M.rows M.cols) then .ok row else .error .assertFail := by
  induction row with
  | nil => rfl
  | cons M row ih =>
    rw [List.mapM_cons, ih]
    unfold Csr.copyCtor
    rw [copySizes_eq, List.all_cons]
    cases sized M.rows M.cols
    · rfl
    · cases row.all (fun M => sized M.rows M.cols) <;> rfl

theorem mapM_copies (rows : List (List (Csr α))) :
    rows.mapM (fun row => row.mapM Csr.copyCtor)
      = if rows.all (fun row => row.all (fun M => sized M.rows M.cols)) then .ok rows else .error .assertFail := by
  induction rows with
  | nil => rfl
  | cons row rows ih =>
    rw [List.mapM_cons, ih, mapM_copy, List.all_cons]
    cases row.all (fun M => sized M.rows M.cols)
    · rfl
    · cases rows.all (fun row => row.all (fun M => sized M.rows M.cols)) <;> rfl

/-- **C101**: the same for block matrices; what is left behind has no offsets at all. -/
theorem C101_block {A U : Type} (make : A → Res (BlockMat α)) (update : BlockMat α → U → Res (BlockMat α)) (ops : List (LifeStmt A U)) :
    (BlockMat.cls make update).run ops []
      = (plainVals make (fun B => sized B.rows B.cols && B.blocks.all (fun row => row.all (fun M => sized M.rows M.cols))) ⟨0, 0, [], [], []⟩
          update).run ops [] := by
  apply PlainCls.run_eq (BlockMat.cls make update)
  · intro o
    show BlockMat.copyCtor o = _
    unfold BlockMat.copyCtor
    rw [copySizes_eq, mapM_copies]
    cases sized o.rows o.cols
    · rfl
    · cases o.blocks.all (fun row => row.all (fun M => sized M.rows M.cols)) <;> rfl
  · intro o p; rfl

/-- **C101**: the same for block vectors. -/
theorem C101_blockvec {A U : Type} (make : A → Res (BlockVec α)) (update : BlockVec α → U → Res (BlockVec α)) (ops : List (LifeStmt A U)) :
    (BlockVec.cls make update).run ops [] = (plainVals make (fun _ => true) ⟨[], []⟩ update).run ops [] := by
  apply PlainCls.run_eq (BlockVec.cls make update)
  · intro o; rfl
  · intro o p; rfl

/-- **C101**: block operators can be copied, moved and swapped as values, but for their scratch vector; they cannot be assigned.  The
changes must not depend on the scratch vector. -/
theorem C101_blockop {A U : Type} (make : A → Res (BlockOp α)) (update : BlockOp α → U → Res (BlockOp α))
    (hu : ∀ o v u, BlockOp.Same o v → Outcome BlockOp.Same (update o u) (update v u))
    (ops : List (LifeStmt A U)) (_ : ∀ s ∈ ops, s.assigns = false) :
    Agree BlockOp.Same ((BlockOp.cls make update).run ops [])
      ((plainVals make (fun B => sized B.rows B.cols) ⟨0, 0, [], [], [], [], [], []⟩ update).run ops []) := by
  apply PlainCls.Both.agree
  apply PlainCls.run_both
  · constructor
    · intro a
      show Outcome BlockOp.Same (make a) (make a)
      cases make a <;> exact rfl
    · intro o v h
      have h' : ({ o with tmp := [] } : BlockOp α) = { v with tmp := [] } := h
      have hr : o.rows = v.rows := by injection h'
      have hc : o.cols = v.cols := by injection h'
      show Outcome BlockOp.Same (BlockOp.copyCtor o) (if sized v.rows v.cols then .ok v else .error .assertFail)
      unfold BlockOp.copyCtor
      rw [copySizes_eq, hr, hc]
      cases sized v.rows v.cols
      · rfl
      · show BlockOp.Same _ v
        rw [← hr, ← hc]
        exact h
    · exact rfl
    · intro o v p u h k
      exact ⟨k, h⟩
    · intro v; rfl
  · intro i u _ o v h
    exact hu o v u h
  · exact .nil

/-! ## What is left behind -/

section Left

/-- **C101**: a sparse matrix that was moved from answers as `SparseMatrix()` does. -/
theorem C101_sparse_left [Zero α] [Add α] [Mul α] (x y : List α) (D E : Dense α) (B : Csr α) :
    (Csr.moveInit : Csr α).nnz = (Csr.empty : Csr α).nnz ∧ (Csr.moveInit : Csr α).mult x y = Csr.empty.mult x y ∧
    (Csr.moveInit : Csr α).multAT x y = Csr.empty.multAT x y ∧ (Csr.moveInit : Csr α).transpose = Csr.empty.transpose ∧
    (Csr.moveInit : Csr α).toDense = Csr.empty.toDense ∧ (Csr.moveInit : Csr α).multDenseInto D E = Csr.empty.multDenseInto D E ∧
    (Csr.moveInit : Csr α).multATDenseInto D E = Csr.empty.multATDenseInto D E ∧ (Csr.moveInit : Csr α).multSparse B = Csr.empty.multSparse B ∧
    (Csr.moveInit : Csr α).getDiag = Csr.empty.getDiag := by
  refine ⟨rfl, rfl, rfl, ?_, rfl, rfl, rfl, ?_, rfl⟩
  · rfl
  · rfl

/-- **C101**: but its arrays do not make a matrix: passing them to the constructor fails, with those of `SparseMatrix()` it does not. -/
theorem C101_sparse_left_arrays :
    Csr.ofArrays (Csr.moveInit : Csr α).indptr (Csr.moveInit : Csr α).indices (Csr.moveInit : Csr α).data 0 0 = .error .assertFail ∧
    Csr.ofArrays (Csr.empty : Csr α).indptr (Csr.empty : Csr α).indices (Csr.empty : Csr α).data 0 0 = .ok Csr.empty := by
  constructor <;> rfl

/-- **C101**: a block matrix that was moved from has no transpose: `Transpose` takes the last of no offsets.  `BlockMatrix()` has one. -/
theorem C101_block_left : (BlockMat.moveInit : BlockMat α).transpose = .error .undefinedBehaviour ∧
    (BlockMat.empty : BlockMat α).transpose = .ok BlockMat.empty := by
  constructor <;> rfl

/-- **C101**: moving a coordinate matrix in any program leaves one that nothing can be asked of; giving it a size mends that. -/
theorem C101_coo_left {A U : Type} (make : A → Res (CooObj α)) (update : CooObj α → U → Res (CooObj α)) (w w' : List (Option (CooObj α)))
    (i : Nat) (h : (CooObj.cls make update).step w (.move i) = .ok w') :
    ∃ o, w'[i]? = some (some o) ∧ o.read = .error .undefinedBehaviour ∧
      ∀ r c : Int, 0 ≤ r → 0 ≤ c → ∃ p, o.setSize r c = .ok p ∧ p.read = .ok ⟨r, c, true, []⟩ := by
  simp only [PlainCls.step, bind_eq_ok] at h
  obtain ⟨s, hs, h⟩ := h
  have hi : i < w.length := by
    by_contra hn
    unfold PlainCls.obj at hs
    rw [List.getElem?_eq_none (by omega)] at hs
    simp at hs
  refine ⟨CooObj.moveInit, ?_, rfl, ?_⟩
  · have e : w' = w.set i (some CooObj.moveInit) ++ [some s] := by
      simp only [Except.ok.injEq] at h
      rw [← h]
      rfl
    rw [e, List.getElem?_append_left (by simpa using hi), List.getElem?_set_self hi]
  · intro r c hr hc
    refine ⟨⟨r, c, some true, []⟩, ?_, rfl⟩
    unfold CooObj.setSize
    rw [cassert_true hr, ok_bind, cassert_true hc, ok_bind]
    rfl

/-- **C101**: by the letter of the standard, moving a coordinate or list-of-lists matrix is already undefined: `swap` reads the
indeterminate `size_set_` of the new object. -/
theorem C101_move_strict (o : CooObj α) (p : LilObj α) :
    CooObj.swapStrict CooObj.moveInit o = .error .undefinedBehaviour ∧ LilObj.swapStrict LilObj.moveInit p = .error .undefinedBehaviour :=
  ⟨rfl, rfl⟩

/-- **C101**: the same for list-of-lists matrices: nothing can be asked of one that was moved from. -/
theorem C101_lil_left {A U : Type} (make : A → Res (LilObj α)) (update : LilObj α → U → Res (LilObj α)) (w w' : List (Option (LilObj α)))
    (i : Nat) (h : (LilObj.cls make update).step w (.move i) = .ok w') : ∃ o, w'[i]? = some (some o) ∧ o.read = .error .undefinedBehaviour := by
  simp only [PlainCls.step, bind_eq_ok] at h
  obtain ⟨s, hs, h⟩ := h
  have hi : i < w.length := by
    by_contra hn
    unfold PlainCls.obj at hs
    rw [List.getElem?_eq_none (by omega)] at hs
    simp at hs
  refine ⟨LilObj.moveInit, ?_, rfl⟩
  have e : w' = w.set i (some LilObj.moveInit) ++ [some s] := by
    simp only [Except.ok.injEq] at h
    rw [← h]
    rfl
  rw [e, List.getElem?_append_left (by simpa using hi), List.getElem?_set_self hi]

end Left

/-! ## The scratch vector of a block operator -/

theorem Outcome.bind {O V P W : Type} {R : O → V → Prop} {T : P → W → Prop} {r : Res O} {s : Res V} {f : O → Res P} {g : V → Res W}
    (h : Outcome R r s) (hf : ∀ o v, R o v → Outcome T (f o) (g v)) : Outcome T (r >>= f) (s >>= g) := by
  cases r <;> cases s
  · exact h
  · exact h.elim
  · exact h.elim
  · exact hf _ _ h

theorem Outcome.refl {O : Type} (r : Res O) : Outcome (fun a b => a = b) r r := by cases r <;> exact rfl

theorem forUp_outcome {σ τ : Type} {R : σ → τ → Prop} {f : Int → σ → Res σ} {g : Int → τ → Res τ}
    (h : ∀ i s t, R s t → Outcome R (f i s) (g i t)) (a b : Int) {s : σ} {t : τ} (hs : R s t) : Outcome R (forUp a b s f) (forUp a b t g) := by
  unfold forUp
  generalize (b - a).toNat = n
  induction n generalizing a s t with
  | zero => exact hs
  | succ n ih => exact Outcome.bind (h a s t hs) (fun o v hr => ih (a + 1) hr)

/-- The operator does not look at what its output held before. -/
def Op.Fresh (op : Op α) : Prop :=
  (∀ x y z : List α, y.length = z.length → op.mult x y = op.mult x z) ∧ ∀ x y z : List α, y.length = z.length → op.multAT x y = op.multAT x z

theorem setSize_cases (t : List α) (n : Int) (z : α) : (∃ u, Vec.setSize t n z = .ok u ∧ (u.length : Int) = n) ∨
    (n < 0 ∧ Vec.setSize t n z = .error .assertFail) := by
  unfold Vec.setSize
  by_cases h : n ≠ t.length
  · rw [if_pos h]
    by_cases h0 : 0 ≤ n
    · rw [cassert_true h0, ok_bind]
      refine .inl ⟨_, rfl, ?_⟩
      simp [resize]
      omega
    · rw [cassert_false h0]
      exact .inr ⟨by omega, rfl⟩
  · rw [if_neg h]
    exact .inl ⟨t, rfl, by omega⟩

theorem Op.Fresh.resize [Zero α] {op : Op α} (h : op.Fresh) (x t u : List α) : op.multResize x t = op.multResize x u := by
  unfold Op.multResize
  rcases setSize_cases t op.rows 0 with ⟨a, ha, hl⟩ | ⟨h0, ha⟩
  · rcases setSize_cases u op.rows 0 with ⟨b, hb, hm⟩ | ⟨h0, hb⟩
    · rw [ha, hb, ok_bind, ok_bind]
      exact h.1 x a b (by omega)
    · omega
  · rcases setSize_cases u op.rows 0 with ⟨b, hb, hm⟩ | ⟨_, hb⟩
    · omega
    · rw [ha, hb]

theorem Op.Fresh.resizeAT [Zero α] {op : Op α} (h : op.Fresh) (x t u : List α) : op.multATResize x t = op.multATResize x u := by
  unfold Op.multATResize
  rcases setSize_cases t op.cols 0 with ⟨a, ha, hl⟩ | ⟨h0, ha⟩
  · rcases setSize_cases u op.cols 0 with ⟨b, hb, hm⟩ | ⟨h0, hb⟩
    · rw [ha, hb, ok_bind, ok_bind]
      exact h.2 x a b (by omega)
    · omega
  · rcases setSize_cases u op.cols 0 with ⟨b, hb, hm⟩ | ⟨_, hb⟩
    · omega
    · rw [ha, hb]

theorem setSize_outcome (t u : List α) (n : Int) (z : α) : Outcome (fun _ _ => True) (Vec.setSize t n z) (Vec.setSize u n z) := by
  rcases setSize_cases t n z with ⟨a, ha, hl⟩ | ⟨h0, ha⟩ <;> rcases setSize_cases u n z with ⟨b, hb, hm⟩ | ⟨h1, hb⟩ <;> rw [ha, hb]
  · trivial
  · omega
  · omega
  · rfl

/-- Every block the operator points to ignores what its output held. -/
def BlockOp.AllFresh (B : BlockOp α) : Prop := ∀ row ∈ B.blocks, ∀ op, some op ∈ row → op.Fresh

theorem rd_mem {β : Type} {l : List β} {i : Int} {x : β} (h : rd l i = .ok x) : x ∈ l := by
  unfold rd at h
  split at h
  · split at h
    · rename_i e
      obtain rfl : _ = x := by simpa using h
      exact List.mem_of_getElem? e
    · simp at h
  · simp at h

theorem BlockOp.multStep_outcome [Zero α] [Add α] (B : BlockOp α) (hB : B.AllFresh) (x : List α) (i j : Int) (v : View) (y t u : List α) :
    Outcome (fun p q : List α × List α => p.1 = q.1) (B.multStep x i v j (y, t)) (B.multStep x i v j (y, u)) := by
  unfold BlockOp.multStep
  cases hr : rd B.blocks i with
  | error e => rfl
  | ok row =>
    cases ho : rd row j with
    | error e => simp only [ok_bind, ho]; rfl
    | ok op =>
      simp only [ok_bind, ho]
      cases op with
      | none => exact rfl
      | some op =>
        have hf := hB row (rd_mem hr) op (rd_mem ho)
        refine Outcome.bind (Outcome.refl _) ?_
        rintro a _ rfl
        refine Outcome.bind (Outcome.refl _) ?_
        rintro b _ rfl
        rw [hf.resize b t u]
        refine Outcome.bind (Outcome.refl _) ?_
        rintro c _ rfl
        refine Outcome.bind (Outcome.refl _) ?_
        rintro d _ rfl
        exact rfl

theorem BlockOp.multATStep_outcome [Zero α] [Add α] (B : BlockOp α) (hB : B.AllFresh) (y : List α) (i j : Int) (v : View) (x t u : List α) :
    Outcome (fun p q : List α × List α => p.1 = q.1) (B.multATStep y j v i (x, t)) (B.multATStep y j v i (x, u)) := by
  unfold BlockOp.multATStep
  cases hr : rd B.blocks i with
  | error e => rfl
  | ok row =>
    cases ho : rd row j with
    | error e => simp only [ok_bind, ho]; rfl
    | ok op =>
      simp only [ok_bind, ho]
      cases op with
      | none => exact rfl
      | some op =>
        have hf := hB row (rd_mem hr) op (rd_mem ho)
        refine Outcome.bind (Outcome.refl _) ?_
        rintro a _ rfl
        refine Outcome.bind (Outcome.refl _) ?_
        rintro b _ rfl
        rw [hf.resizeAT b t u]
        refine Outcome.bind (Outcome.refl _) ?_
        rintro c _ rfl
        refine Outcome.bind (Outcome.refl _) ?_
        rintro d _ rfl
        exact rfl

/-- **C101**: two block operators that differ only in the scratch vector, as an operator and its copy do, give the same products and fail
in the same way, if no block looks at what its output held. -/
theorem C101_blockop_mult [Zero α] [Add α] (B C : BlockOp α) (h : BlockOp.Same B C) (hB : B.AllFresh) (x y : List α) :
    Outcome (fun p q : BlockOp α × List α => BlockOp.Same p.1 q.1 ∧ p.2 = q.2) (B.mult x y) (C.mult x y) ∧
    Outcome (fun p q : BlockOp α × List α => BlockOp.Same p.1 q.1 ∧ p.2 = q.2) (B.multAT x y) (C.multAT x y) := by
  obtain ⟨r, c, ro, co, bl, bx, bv, t⟩ := B
  obtain ⟨r', c', ro', co', bl', bx', bv', u⟩ := C
  obtain ⟨rfl, rfl, rfl, rfl, rfl, rfl, rfl⟩ : r = r' ∧ c = c' ∧ ro = ro' ∧ co = co' ∧ bl = bl' ∧ bx = bx' ∧ bv = bv' := by
    unfold BlockOp.Same at h
    injection h with h1 h2 h3 h4 h5 h6 h7
    exact ⟨h1, h2, h3, h4, h5, h6, h7⟩
  constructor
  · unfold BlockOp.mult
    refine Outcome.bind (Outcome.refl _) ?_
    rintro _ _ -
    refine Outcome.bind (Outcome.refl _) ?_
    rintro _ _ -
    refine Outcome.bind (R := fun p q : List α × List α => p.1 = q.1) (forUp_outcome ?_ _ _ rfl) ?_
    · rintro i ⟨a, s⟩ ⟨_, s'⟩ rfl
      refine Outcome.bind (Outcome.refl _) ?_
      rintro v _ rfl
      refine Outcome.bind (setSize_outcome s s' _ _) ?_
      rintro s s' -
      refine forUp_outcome ?_ _ _ rfl
      rintro j ⟨a, s⟩ ⟨_, s'⟩ rfl
      exact BlockOp.multStep_outcome ⟨r, c, ro, co, bl, bx, bv, t⟩ hB x i j v a s s'
    · rintro ⟨a, s⟩ ⟨_, s'⟩ rfl
      refine Outcome.bind (Outcome.refl _) ?_
      rintro _ _ -
      exact ⟨rfl, rfl⟩
  · unfold BlockOp.multAT
    refine Outcome.bind (Outcome.refl _) ?_
    rintro _ _ -
    refine Outcome.bind (Outcome.refl _) ?_
    rintro _ _ -
    refine Outcome.bind (R := fun p q : List α × List α => p.1 = q.1) (forUp_outcome ?_ _ _ rfl) ?_
    · rintro i ⟨a, s⟩ ⟨_, s'⟩ rfl
      refine Outcome.bind (Outcome.refl _) ?_
      rintro v _ rfl
      refine Outcome.bind (setSize_outcome s s' _ _) ?_
      rintro s s' -
      refine forUp_outcome ?_ _ _ rfl
      rintro j ⟨a, s⟩ ⟨_, s'⟩ rfl
      exact BlockOp.multATStep_outcome ⟨r, c, ro, co, bl, bx, bv, t⟩ hB x j i v a s s'
    · rintro ⟨a, s⟩ ⟨_, s'⟩ rfl
      refine Outcome.bind (Outcome.refl _) ?_
      rintro _ _ -
      exact ⟨rfl, rfl⟩

/-! ## The blocks of a block vector -/

theorem Tiles.at_last {elems : List α} {offsets : List Int} (h : Tiles elems offsets) :
    ∃ m : Nat, offsets.length = m + 1 ∧ offsets[m]? = some (elems.length : Int) ∧ offsets[0]? = some 0 := by
  obtain ⟨h0, h1, -⟩ := h
  cases offsets with
  | nil => simp at h0
  | cons a l =>
    refine ⟨l.length, by simp, ?_, ?_⟩
    · rw [List.getLast?_eq_getElem?] at h1
      simpa using h1
    · simpa using h0

theorem Tiles.mono {elems : List α} {offsets : List Int} (h : Tiles elems offsets) {i j : Nat} {a b : Int} (hij : i ≤ j)
    (ha : offsets[i]? = some a) (hb : offsets[j]? = some b) : a ≤ b := by
  rcases Nat.lt_or_ge i j with hlt | hge
  · obtain ⟨hi, rfl⟩ := List.getElem?_eq_some_iff.1 ha
    obtain ⟨hj, rfl⟩ := List.getElem?_eq_some_iff.1 hb
    exact List.pairwise_iff_getElem.1 h.2.2 i j hi hj hlt
  · obtain rfl : i = j := by omega
    rw [ha] at hb
    have : a = b := by simpa using hb
    omega

theorem BlockVec.getBlock_ok (b : BlockVec α) (k : Nat) {lo hi : Int} (hl : b.offsets[k]? = some lo) (hh : b.offsets[k + 1]? = some hi)
    (h0 : 0 ≤ lo) (h1 : lo ≤ hi) (h2 : hi ≤ b.elems.length) : b.getBlock k = .ok ((b.elems.drop lo.toNat).take (hi - lo).toNat) := by
  have hk : k + 1 < b.offsets.length := by
    by_contra hn
    rw [List.getElem?_eq_none (by omega)] at hh
    simp at hh
  unfold BlockVec.getBlock
  rw [cassert_true (by omega), ok_bind]
  have e1 : rd b.offsets (k : Int) = .ok lo := by rw [rd_nat (by omega)]; obtain ⟨_, e⟩ := List.getElem?_eq_some_iff.1 hl; rw [e]
  have e2 : rd b.offsets ((k : Int) + 1) = .ok hi := by
    have : (k : Int) + 1 = ((k + 1 : Nat) : Int) := by simp
    rw [this, rd_nat (by omega)]; obtain ⟨_, e⟩ := List.getElem?_eq_some_iff.1 hh; rw [e]
  rw [e1, ok_bind, e2, ok_bind, cassert_true (by omega), ok_bind]
  unfold Csr.slice
  rw [if_pos ⟨h0, h1, h2⟩]

/-- **C101**: if the offsets tile the vector, then every block can be read and the blocks in order are the vector. -/
theorem C101_blocks (b : BlockVec α) (h : Tiles b.elems b.offsets) :
    ∃ L, (List.range (b.offsets.length - 1)).mapM (fun (k : Nat) => b.getBlock k) = .ok L ∧ L.flatten = b.elems := by
  obtain ⟨m, hm, hlast, h0⟩ := h.at_last
  have key : ∀ n, n ≤ m → ∃ L hi, (List.range n).mapM (fun (k : Nat) => b.getBlock k) = .ok L ∧ b.offsets[n]? = some hi ∧
      L.flatten = b.elems.take hi.toNat := by
    intro n
    induction n with
    | zero => intro _; exact ⟨[], 0, rfl, h0, by simp⟩
    | succ n ih =>
      intro hn
      obtain ⟨L, lo, hL, hlo, hf⟩ := ih (by omega)
      obtain ⟨hi, hhi⟩ : ∃ hi, b.offsets[n + 1]? = some hi := ⟨_, List.getElem?_eq_getElem (by omega)⟩
      have l0 := h.mono (Nat.zero_le n) h0 hlo
      have l1 := h.mono (Nat.le_succ n) hlo hhi
      have l2 := h.mono hn hhi hlast
      have hb := b.getBlock_ok n hlo hhi l0 l1 l2
      refine ⟨L ++ [(b.elems.drop lo.toNat).take (hi - lo).toNat], hi, ?_, hhi, ?_⟩
      · rw [List.range_succ, List.mapM_append, hL]
        simp [hb]
      · rw [List.flatten_append, hf]
        have : hi.toNat = lo.toNat + (hi - lo).toNat := by omega
        rw [this, List.take_add]
        simp
  obtain ⟨L, hi, hL, hhi, hf⟩ := key m (le_refl m)
  refine ⟨L, by rw [hm]; exact hL, ?_⟩
  rw [hlast] at hhi
  obtain rfl : (b.elems.length : Int) = hi := by simpa using hhi
  rw [hf]
  simp

/-- **C101**: the constructors from offsets make vectors whose blocks tile them; so do copies and moves, as the offsets go along. -/
theorem C101_blocks_new (offsets : List Int) (val : α) (b : BlockVec α) (hb : BlockVec.ofOffsets offsets val = .ok b)
    (h0 : offsets.head? = some 0) (hp : offsets.Pairwise (· ≤ ·)) : Tiles b.elems b.offsets := by
  unfold BlockVec.ofOffsets at hb
  simp only [bind_eq_ok] at hb
  obtain ⟨n, hn, v, hv, e⟩ := hb
  obtain rfl : _ = b := by simpa using e
  refine ⟨h0, ?_, hp⟩
  unfold lastOf at hn
  split at hn
  · rename_i x hx
    obtain rfl : x = n := by simpa using hn
    rw [hx]
    unfold mkVec at hv
    split at hv
    · obtain rfl := by simpa using hv
      simp
      omega
    · simp at hv
  · simp at hn

/-- **C101**: assigning a shorter vector, which the class allows, leaves the offsets as they are; a block then reaches past the end. -/
theorem C101_blocks_stale (b : BlockVec α) (h : Tiles b.elems b.offsets) (v : List α) (hv : v.length < b.elems.length) :
    ∃ k : Nat, (k : Int) < (b.offsets.length : Int) - 1 ∧ (b.assignVec v).getBlock k = .error .outOfBounds := by
  obtain ⟨m, hm, hlast, h0⟩ := h.at_last
  cases m with
  | zero =>
    rw [hlast] at h0
    have : (b.elems.length : Int) = 0 := by simpa using h0
    omega
  | succ m =>
    refine ⟨m, by omega, ?_⟩
    obtain ⟨lo, hlo⟩ : ∃ lo, b.offsets[m]? = some lo := ⟨_, List.getElem?_eq_getElem (by omega)⟩
    have l1 := h.mono (Nat.le_succ m) hlo hlast
    unfold BlockVec.getBlock BlockVec.assignVec
    simp only
    rw [cassert_true (by omega), ok_bind]
    have e1 : rd b.offsets (m : Int) = .ok lo := by rw [rd_nat (by omega)]; obtain ⟨_, e⟩ := List.getElem?_eq_some_iff.1 hlo; rw [e]
    have e2 : rd b.offsets ((m : Int) + 1) = .ok (b.elems.length : Int) := by
      have : (m : Int) + 1 = ((m + 1 : Nat) : Int) := by simp
      rw [this, rd_nat (by omega)]; obtain ⟨_, e⟩ := List.getElem?_eq_some_iff.1 hlast; rw [e]
    rw [e1, ok_bind, e2, ok_bind, cassert_true (by omega), ok_bind]
    unfold Csr.slice
    rw [if_neg (by omega)]

/-! ## Examples -/

/-- Changes used in the examples. -/
inductive ExChange
  | scale (c : ℚ)
  | resize (rows cols : Int)

def exCsr : Csr ℚ := ⟨2, 2, [0, 2, 4], [0, 1, 0, 1], [2, 1, 1, 3]⟩

def exCls : PlainCls (Csr ℚ) (Csr ℚ) ExChange :=
  Csr.cls .ok (fun M u => match u with | .scale c => .ok (M.scale c) | .resize _ _ => .ok M)

/-- A copy is not touched by scaling the original; moving passes the scaled matrix on; the copy is assigned back. -/
example : exCls.run [.make exCsr, .copy 0, .update 0 (.scale 10), .move 0, .assign 0 1, .swap 1 2, LifeStmt.destroy 2] []
    = .ok [some exCsr, some (exCsr.scale 10), none] := by decide +kernel

/-- Assigning a matrix to itself, by copy or by move, keeps it. -/
example : exCls.run [.make exCsr, .assign 0 0, .assignMove 0 0] [] = .ok [some exCsr] := by decide +kernel

/-- Moving leaves no arrays behind. -/
example : exCls.run [.make exCsr, .move 0] [] = .ok [some ⟨0, 0, [], [], []⟩, some exCsr] := by decide +kernel

/-- A coordinate matrix of negative size cannot come from the constructors; a list-of-lists matrix can be given one, and is then not
copied. -/
example : LilObj.copyCtor (LilObj.ofLil ((Lil.new : Lil ℚ).setSize (-1) 2)) = .error .assertFail := by decide +kernel

example : (BlockVec.ofOffsets [0, 2, 2, 5] (7 : ℚ)).toOption.map (fun b => ((List.range 3).mapM (fun (k : Nat) => b.getBlock k)).toOption)
    = some (some [[7, 7], [], [7, 7, 7]]) := by decide +kernel

example : Tiles [(1 : ℚ), 2, 3] [0, 1, 3] := ⟨rfl, rfl, by decide⟩

example : ((BlockVec.ofView [(1 : ℚ), 2, 3] [0, 1, 3]).assignVec [5, 6]).getBlock 1 = .error .outOfBounds := by decide +kernel

/-- One step of CG as an operator: its output is also the initial guess. -/
def exGuess : Op ℚ := ⟨2, 2, fun b x => pcgSolve ⟨2, 2, exCsr.mult, exCsr.multAT⟩ none b x 1 0 0, fun _ _ => .error .threw⟩

/-- A block operator of one solver, after one application to `[1, 2]`, and its copy. -/
def exGuessRun : Res (List ℚ × List ℚ) := do
  let B ← BlockOp.new [0, 2] [0, 2]
  let B ← B.setBlock 0 0 exGuess
  let p ← B.mult [1, 2] [0, 0]
  let C ← BlockOp.copyCtor p.1
  let q ← p.1.mult [1, 2] [0, 0]
  let r ← C.mult [1, 2] [0, 0]
  .ok (q.2, r.2)

/-- **C101**: with blocks that do look, such as solvers, which start from what the output held, a copy gives another result than the
original: the original starts from its last result, the copy from zero. -/
theorem C101_blockop_guess : ∃ q r, exGuessRun = .ok (q, r) ∧ q ≠ r := by
  have h : exGuessRun.toOption.map (fun p => decide (p.1 ≠ p.2)) = some true := by decide +kernel
  cases e : exGuessRun with
  | error e' => rw [e] at h; simp [Except.toOption] at h
  | ok p => rw [e] at h; exact ⟨p.1, p.2, rfl, by simpa [Except.toOption] using h⟩

/-- **C101**: well-formed sparse matrices as blocks do not look. -/
theorem C101_sparse_fresh {R : Type} [NonUnitalNonAssocSemiring R] (A : Csr R) (hA : A.WF) : A.toOp.Fresh := by
  constructor
  · intro x y z h
    show A.mult x y = A.mult x z
    by_cases hx : (x.length : Int) = A.cols
    · by_cases hy : (y.length : Int) = A.rows
      · exact C01_mult_output_irrelevant A hA x y z hx hy (by omega)
      · rw [C01_mult_rejects A x y (.inr hy), C01_mult_rejects A x z (.inr (by omega))]
    · rw [C01_mult_rejects A x y (.inl hx), C01_mult_rejects A x z (.inl hx)]
  · intro x y z h
    show A.multAT x y = A.multAT x z
    unfold Csr.multAT
    rw [h]

example : (Csr.ofDiag [(2 : ℚ), 3]).toOp.Fresh := C101_sparse_fresh _ (by decide +kernel)

end Linalg
