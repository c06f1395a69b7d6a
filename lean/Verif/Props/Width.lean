import Verif.Proof.Width
import Verif.Props.SparseMult
import Verif.Props.SparseTranspose
import Verif.Props.SparseDense
import Verif.Props.Coo

/-!
# Which sizes fit in an `int`
-/

namespace Linalg
open Cpp

variable {α R : Type}

/-! ## DenseMatrix -/

/-- **C108.**  A dense matrix can be built exactly if the number of its elements is an `int`: otherwise `rows * cols` overflows. -/
theorem C108_dense_new [Zero α] (M rows cols : Int) (hM : 0 ≤ M) (hr : 0 ≤ rows) (hc : 0 ≤ cols) :
    Dense.zerosLim (α := α) M rows cols = if rows * cols ≤ M then Dense.zeros rows cols else .error .undefinedBehaviour := by
  have h0 : 0 ≤ rows * cols := mul_nonneg hr hc
  unfold Dense.zerosLim Dense.zeros
  by_cases h : rows * cols ≤ M
  · rw [if_pos h, fit_ok (by omega) h, ok_bind, mkVec_int h0, ok_bind, ok_bind]
    unfold Dense.ofDataLim Dense.ofData
    rw [fit_ok (by omega) h, castInt_eq (by rw [List.length_replicate]; omega)]
    rfl
  · rw [if_neg h, fit_not (by omega)]
    rfl

/-- **C108.**  The same for `SetSize`. -/
theorem C108_dense_setSize [Zero α] (M rows cols : Int) (hM : 0 ≤ M) (hr : 0 ≤ rows) (hc : 0 ≤ cols) (D : Dense α) (val : α) :
    D.setSizeLim M rows cols val = if rows * cols ≤ M then D.setSizeVal rows cols val else .error .undefinedBehaviour := by
  have h0 : 0 ≤ rows * cols := mul_nonneg hr hc
  unfold Dense.setSizeLim Dense.setSizeVal
  rw [cassert_true hr, cassert_true hc, ok_bind, ok_bind, ok_bind, ok_bind]
  by_cases h : rows * cols ≤ M
  · rw [if_pos h, fit_ok (by omega) h]
    rfl
  · rw [if_neg h, fit_not (by omega)]
    rfl

/-- **C108.**  In a dense matrix whose number of elements is an `int`, no element access overflows, whatever the indices. -/
theorem C108_dense_access (M : Int) (D : Dense α) (hM : D.rows * D.cols ≤ M) (i j : Int) (x : α) :
    D.getLim M i j = D.get i j ∧ D.putLim M i j x = D.put i j x :=
  ⟨Dense.getLim_eq hM i j, Dense.putLim_eq hM i j x⟩

/-- **C108.**  The constructor from data compares the size of the data only up to multiples of `2 (M + 1)`. -/
theorem C108_dense_data (M rows cols : Int) (hM : 0 ≤ M) (hr : 0 ≤ rows) (hc : 0 ≤ cols) (hs : rows * cols ≤ M) (data : List α) :
    Dense.ofDataLim M rows cols data = .ok ⟨rows, cols, data⟩ ↔ ∃ k : Nat, (data.length : Int) = rows * cols + k * (2 * (M + 1)) := by
  have h0 : 0 ≤ rows * cols := mul_nonneg hr hc
  unfold Dense.ofDataLim
  rw [cassert_true hr, cassert_true hc, ok_bind, ok_bind, fit_ok (by omega) hs, ok_bind]
  have step : (do cassert (castInt M data.length = rows * cols); (.ok ⟨rows, cols, data⟩ : Res (Dense α))) = .ok ⟨rows, cols, data⟩ ↔
      castInt M data.length = rows * cols := by
    by_cases h : castInt M data.length = rows * cols
    · rw [cassert_true h]; exact ⟨fun _ => h, fun _ => rfl⟩
    · rw [cassert_false h]; exact ⟨fun e => absurd e nofun, fun e => absurd e h⟩
  rw [step]
  unfold castInt
  constructor
  · intro h
    have hd := Int.mul_ediv_add_emod ((data.length : Int) + (M + 1)) (2 * (M + 1))
    have hq : 0 ≤ ((data.length : Int) + (M + 1)) / (2 * (M + 1)) := Int.ediv_nonneg (by omega) (by omega)
    refine ⟨(((data.length : Int) + (M + 1)) / (2 * (M + 1))).toNat, ?_⟩
    rw [Int.toNat_of_nonneg hq]
    rw [mul_comm (2 * (M + 1))] at hd
    omega
  · rintro ⟨k, hk⟩
    rw [hk, show rows * cols + (k : Int) * (2 * (M + 1)) + (M + 1) = rows * cols + (M + 1) + (2 * (M + 1)) * k by ring, Int.add_mul_emod_self_left,
      Int.emod_eq_of_lt (by omega) (by omega)]
    omega

/-- **C108.**  `ToDense`: as without limits if the dense matrix can be built, else undefined. -/
theorem C108_toDense [Zero α] (M : Int) (hM : 0 ≤ M) (A : Csr α) (hA : A.WF) (dense : Dense α) :
    A.toDenseIntoLim M dense = if A.rows * A.cols ≤ M then A.toDenseInto dense else .error .undefinedBehaviour := by
  have h0 : 0 ≤ A.rows * A.cols := mul_nonneg hA.rows_nonneg hA.cols_nonneg
  by_cases h : A.rows * A.cols ≤ M
  · rw [if_pos h]
    obtain ⟨D, hD, -⟩ := C06_toDenseInto_last A hA dense
    rw [hD]
    have : Imp (fun _ => True) (A.toDenseInto dense) (A.toDenseIntoLim M dense) := by
      unfold Csr.toDenseInto Csr.toDenseIntoLim
      rw [show dense.setSize A.rows A.cols = dense.setSizeVal A.rows A.cols 0 from rfl, C108_dense_setSize M _ _ hM hA.rows_nonneg hA.cols_nonneg, if_pos h]
      refine Imp.bind (Imp.same (P := fun D => D.rows = A.rows ∧ D.cols = A.cols) ?_) (fun D0 hD0 => ?_)
      · intro r hr
        unfold Dense.setSizeVal at hr
        rw [cassert_true hA.rows_nonneg, cassert_true hA.cols_nonneg] at hr
        obtain rfl := Except.ok.inj hr
        exact ⟨rfl, rfl⟩
      · refine Imp.mono (P := fun D => D.rows = A.rows ∧ D.cols = A.cols) (forUp_imp' _ hD0 (fun i D _ _ hD => Csr.forRow_imp _ hD (fun j D hD => ?_)))
          (fun _ _ => trivial)
        refine (Imp.any _).bind (fun d _ => (Imp.any _).bind (fun c _ => ?_))
        rw [Dense.putLim_eq (by rw [hD.1, hD.2]; exact h)]
        refine Imp.same (fun r hr => ?_)
        have := Dense.put_size hr
        exact ⟨this.1.trans hD.1, this.2.trans hD.2⟩
    exact (this D hD).1
  · rw [if_neg h]
    unfold Csr.toDenseIntoLim
    rw [C108_dense_setSize M _ _ hM hA.rows_nonneg hA.cols_nonneg, if_neg h]
    rfl

/-! ## Sparse matrices -/

/-- Without a check the functions are those of the other models. -/
theorem C108_unlimited [Zero α] [Add α] [Mul α] (A B : Csr α) (marker : List Int) (C : Coo α) :
    A.transposeOn .ok = A.transpose ∧ A.multSparseOn .ok B marker = A.multSparseMarker B marker ∧ C.toSparseOn .ok = C.toSparse := by
  refine ⟨rfl, rfl, ?_⟩
  unfold Coo.toSparseOn Coo.toSparse Coo.findSizeOn Coo.findSize
  by_cases h : C.sizeSet
  · rw [if_pos h, if_pos h]
    rfl
  · rw [if_neg h, if_neg h]
    rfl

/-- **C108.**  `Transpose` never overflows, if the number of entries and of columns plus one are `int`s. -/
theorem C108_transpose [Zero α] (M : Int) (A : Csr α) (hA : A.WF) (hc : A.cols < M) (hn : (A.data.length : Int) ≤ M) :
    A.transposeOn (fit M) = A.transpose := by
  have hc0 := hA.cols_nonneg
  have hl := hA.indices_len
  have : Imp (fun _ => True) (A.transposeOn .ok) (A.transposeOn (fit M)) := by
    unfold Csr.transposeOn
    rw [fit_ok (by omega) (by omega), ok_bind, ok_bind]
    refine Imp.bind (Imp.same (P := CountsTo (0 : Nat)) (fun r hr => ?_)) (fun p0 hp0 => ?_)
    · obtain ⟨-, rfl⟩ := mkVec_eq_ok hr
      exact countsTo_replicate _
    refine Imp.bind (foldlM_imp (fun k p => CountsTo (k : Nat) p) A.indices 0 p0 hp0 (fun k p col _ k1 hp => ?_)) (fun p1 hp1 => ?_)
    · intro r hr
      obtain ⟨x, hx, hr⟩ := bind_eq_ok.1 hr
      obtain ⟨x0, x1, hq⟩ := hp.inc hx
      rw [hx, ok_bind, fit_ok (by omega) (by omega)]
      refine ⟨hr, ?_⟩
      have := hq r hr
      push_cast
      exact this
    refine Imp.bind (forUp_imp (RestTo (A.data.length : Int)) hc0 ?_ (fun i p i0 _ hp => hp.step hn (by omega) i0)) (fun p2 _ => ?_)
    · refine ⟨hp1.1, ?_⟩
      rw [Int.toNat_zero, List.drop_zero, hp1.2]
      omega
    refine Imp.bind (P := fun out => (out.2.1.length : Int) ≤ M) (forUp_imp' _ (by simpa using hn)
      (fun i out _ _ ho => Csr.forRow_imp _ ho (fun j out ho => ?_))) (fun out _ => Imp.any _)
    refine (Imp.any _).bind (fun row _ => (Imp.any _).bind (fun val _ => (Imp.any _).bind (fun k _ => ?_)))
    refine Imp.bind (Imp.same (P := fun ix => (0 ≤ k ∧ k < M) ∧ (ix.length : Int) ≤ M) (fun r hr => ?_)) (fun ix hix => ?_)
    · obtain ⟨k0, k1, rfl⟩ := wr_eq_ok hr
      exact ⟨⟨k0, by omega⟩, by simpa using ho⟩
    refine (Imp.any _).bind (fun dt _ => ?_)
    rw [fit_ok (by omega) (by omega)]
    refine (Imp.any _).bind (fun q _ => (Imp.any _).bind (fun p _ => Imp.same (fun r hr => ?_)))
    obtain rfl := Except.ok.inj hr
    exact hix.2
  obtain ⟨T, hT, -⟩ := C03_transpose A hA
  rw [hT]
  exact (this T hT).1

theorem ofArrays_eq_ok {p ix : List Int} {dt : List α} {r c : Int} {A : Csr α} (h : Csr.ofArrays p ix dt r c = .ok A) : A = ⟨r, c, p, ix, dt⟩ := by
  unfold Csr.ofArrays at h
  obtain ⟨_, _, h⟩ := bind_eq_ok.1 h
  obtain ⟨_, _, h⟩ := bind_eq_ok.1 h
  obtain ⟨_, _, h⟩ := bind_eq_ok.1 h
  obtain ⟨_, _, h⟩ := bind_eq_ok.1 h
  obtain ⟨_, _, h⟩ := bind_eq_ok.1 h
  obtain ⟨_, _, h⟩ := bind_eq_ok.1 h
  split at h
  · obtain ⟨_, _, h⟩ := bind_eq_ok.1 h
    obtain ⟨_, _, h⟩ := bind_eq_ok.1 h
    exact (Except.ok.inj h).symm
  · exact (Except.ok.inj h).symm

/-- **C108.**  The sparse product: as without limits if the number of entries of the product is an `int`, else undefined (`++out_nnz` overflows). -/
theorem C108_mult [NonUnitalNonAssocSemiring R] (M : Int) (A B : Csr R) (hA : A.WF) (hB : B.WF) (hdim : B.rows = A.cols) (hr : A.rows < M)
    (marker : List Int) :
    ∃ P, A.multSparseMarker B marker = .ok P ∧ A.multSparseOn (fit M) B marker = if P.nnz ≤ M then .ok P else .error .undefinedBehaviour := by
  obtain ⟨P, hP, -⟩ := C04_mult_marker A B hA hB hdim marker
  refine ⟨P, hP, ?_⟩
  have hr0 := hA.rows_nonneg
  have hP : A.multSparseOn .ok B marker = .ok P := hP
  unfold Csr.multSparseOn at hP ⊢
  rw [cassert_true hdim, ok_bind] at hP ⊢
  rw [fit_ok (by omega) (by omega)]
  rw [ok_bind] at hP ⊢
  obtain ⟨p0, h1, hP⟩ := bind_eq_ok.1 hP
  obtain ⟨p1, h2, hP⟩ := bind_eq_ok.1 hP
  rw [h1, ok_bind, h2, ok_bind]
  obtain ⟨st, h3, hP⟩ := bind_eq_ok.1 hP
  obtain ⟨ix, h4, hP⟩ := bind_eq_ok.1 hP
  obtain ⟨dt, h5, hP⟩ := bind_eq_ok.1 hP
  obtain ⟨st2, h6, hQ⟩ := bind_eq_ok.1 hP
  obtain ⟨hx0, e4⟩ := mkVec_eq_ok h4
  obtain ⟨-, e5⟩ := mkVec_eq_ok h5
  rw [e4, e5] at h6
  -- the first pass
  obtain ⟨-, sym⟩ := forN_chk (M := M) (cnt := fun st : List Int × Int × List Int => st.2.1) (sym_chk (by omega) A B) _ _ _ st h3
  have sym : forUp 0 A.rows _ (Csr.symOn (fit M) A B) = _ := sym (le_refl _) (by show (0 : Int) ≤ M; omega)
  rw [sym]
  -- the count is the number of entries
  have len : P.nnz = st.2.1 := by
    have := (forUp_imp' (a := 0) (b := A.rows) (f := Csr.numOn .ok A B) (g := Csr.numOn (fit (st.2.1)) A B)
      (fun st' : List Int × Int × List Int × List R => 0 ≤ st'.2.1 ∧ st'.2.2.1.length = st.2.1.toNat ∧ st'.2.2.2.length = st.2.1.toNat)
      (by simp) (fun i s _ _ hs => num_imp (by omega) A B i s hs) st2 h6).2
    rw [ofArrays_eq_ok hQ]
    show (st2.2.2.2.length : Int) = _
    omega
  rw [len]
  by_cases hc : st.2.1 ≤ M
  · rw [if_pos hc, if_pos hc, ok_bind]
    dsimp only
    rw [h4, ok_bind, h5, ok_bind, e4, e5]
    have := (forUp_imp' (a := 0) (b := A.rows) (f := Csr.numOn .ok A B) (g := Csr.numOn (fit M) A B)
      (fun st' : List Int × Int × List Int × List R => 0 ≤ st'.2.1 ∧ st'.2.2.1.length = st.2.1.toNat ∧ st'.2.2.2.length = st.2.1.toNat)
      (by simp) (fun i s _ _ hs => num_imp (by omega) A B i s hs) st2 h6).1
    rw [this, ok_bind, hQ]
  · rw [if_neg hc, if_neg hc]
    rfl

theorem foldl_accum_new [Add α] (l D : List (Int × α)) (h : ((D ++ l).map Prod.fst).Nodup) : l.foldl accum D = D ++ l := by
  induction l generalizing D with
  | nil => simp
  | cons e l ih =>
    have hn : e.1 ∉ D.map Prod.fst := by
      intro he
      rw [List.map_append, List.map_cons, List.nodup_append] at h
      exact h.2.2 _ he _ (by simp) rfl
    rw [List.foldl_cons, accum_new hn, ih _ (by simpa using h)]
    simp

/-- A column of `n` ones, and a row of `n` ones. -/
def onesCol (n : Nat) : Csr Int := Csr.ofRows 1 (List.replicate n [(0, 1)])
def onesRow (n : Nat) : Csr Int := Csr.ofRows n [(List.range n).map (fun j : Nat => ((j : Int), (1 : Int)))]

/-- **C108.**  A column of `n` entries times a row of `n` entries: undefined as soon as `n²` is not an `int`. -/
theorem C108_outer (n : Nat) (M : Int) (hn : (n : Int) < M) (marker : List Int) :
    (onesCol n).WF ∧ (onesRow n).WF ∧ (onesCol n).nnz = n ∧ (onesRow n).nnz = n ∧
    ((n : Int) * n ≤ M ↔ ∃ P, (onesCol n).multSparseOn (fit M) (onesRow n) marker = .ok P) ∧
    (M < (n : Int) * n → (onesCol n).multSparseOn (fit M) (onesRow n) marker = .error .undefinedBehaviour) := by
  have ha : ∀ r ∈ List.replicate n [((0 : Int), (1 : Int))], ∀ e ∈ r, 0 ≤ e.1 ∧ e.1 < (1 : Int) := by
    intro r hr e he
    rw [(List.mem_replicate.1 hr).2] at he
    rw [List.mem_singleton.1 he]
    decide
  have hb : ∀ r ∈ [(List.range n).map (fun j : Nat => ((j : Int), (1 : Int)))], ∀ e ∈ r, 0 ≤ e.1 ∧ e.1 < (n : Int) := by
    intro r hr e he
    rw [List.mem_singleton.1 hr] at he
    obtain ⟨j, hj, rfl⟩ := List.mem_map.1 he
    have := List.mem_range.1 hj
    exact ⟨by show (0 : Int) ≤ j; omega, by show (j : Int) < n; omega⟩
  have hA : (onesCol n).WF := Csr.wf_ofRows (by decide) ha
  have hB : (onesRow n).WF := Csr.wf_ofRows (by omega) hb
  have hrows : (onesCol n).rows = n := by simp [onesCol, Csr.ofRows]
  obtain ⟨P, hP, hL⟩ := C108_mult M (onesCol n) (onesRow n) hA hB rfl (by rw [hrows]; exact hn) marker
  have hnnz : P.nnz = (n : Int) * n := by
    have h2 : (onesCol n).multSparseMarker (onesRow n) marker = _ := multSparseMarker_ofRows rfl (by omega) ha hb marker
    rw [h2] at hP
    obtain rfl := Except.ok.inj hP
    have hrow : (prodsRow [(List.range n).map (fun j : Nat => ((j : Int), (1 : Int)))] [((0 : Int), (1 : Int))]).foldl accum [] =
        (List.range n).map (fun j : Nat => ((j : Int), (1 : Int))) := by
      rw [foldl_accum_new]
      · simp [prodsRow]
      · simp only [prodsRow, List.nil_append, List.flatMap_cons, List.flatMap_nil, List.append_nil]
        have : (List.map Prod.fst (List.map (fun b : Int × Int => (b.1, 1 * b.2)) (List.map (fun j : Nat => ((j : Int), (1 : Int))) (List.range n))))
            = (List.range n).map (fun j : Nat => (j : Int)) := by simp [Function.comp_def]
        have h3 : ((List.range n).map (fun j : Nat => (j : Int))).Nodup := List.Nodup.map (fun a b h => by omega) List.nodup_range
        simpa [Function.comp_def] using h3
    have hrows' : prodRows (List.replicate n [((0 : Int), (1 : Int))]) [(List.range n).map (fun j : Nat => ((j : Int), (1 : Int)))] =
        List.replicate n ((List.range n).map (fun j : Nat => ((j : Int), (1 : Int)))) := by
      unfold prodRows
      rw [List.map_replicate, hrow]
    simp only [Csr.nnz, Csr.ofRows, hrows']
    simp
  rw [hnnz] at hL
  refine ⟨hA, hB, ?_, ?_, ⟨fun h => ⟨P, by rw [hL, if_pos h]⟩, ?_⟩, fun h => by rw [hL, if_neg (by omega)]⟩
  · simp [onesCol, Csr.nnz, Csr.ofRows]
  · simp [onesRow, Csr.nnz, Csr.ofRows]
  · rintro ⟨Q, hQ⟩
    by_contra hc
    rw [hL, if_neg hc] at hQ
    exact absurd hQ nofun

/-- **C108.**  For `int` of 32 bits: 46341 entries each are too many, 46340 are not. -/
theorem C108_outer_32 (marker : List Int) :
    (onesCol 46341).multSparseOn (fit intMax) (onesRow 46341) marker = .error .undefinedBehaviour ∧
    ∃ P, (onesCol 46340).multSparseOn (fit intMax) (onesRow 46340) marker = .ok P :=
  ⟨(C108_outer 46341 intMax (by decide) marker).2.2.2.2.2 (by decide), (C108_outer 46340 intMax (by decide) marker).2.2.2.2.1.1 (by decide)⟩

/-! ## CooMatrix -/

/-- **C108.**  `ToSparse` of a coordinate matrix never overflows if its size plus one and the number of its entries are `int`s. -/
theorem C108_coo [AddMonoid R] (M : Int) (C : Coo R) (hC : C.WF) (hr : C.findSize.1 < M) (hc : C.findSize.2 ≤ M) (hn : (C.entries.length : Int) ≤ M) :
    C.toSparseOn (fit M) = C.toSparse := by
  have hs := hC.size_nonneg
  have hfs : C.findSizeOn (fit M) = .ok C.findSize := by
    unfold Coo.findSizeOn
    unfold Coo.findSize at hr hc hs ⊢
    by_cases h : C.sizeSet
    · rw [if_pos h, if_pos h]
    · rw [if_neg h] at hr hc hs ⊢
      rw [if_neg h]
      simp only at hr hc hs
      simp only
      rw [fit_ok (by omega) (by omega), ok_bind, fit_ok (by omega) (by omega), ok_bind]
  have key : Imp (fun _ => True) C.toSparse (C.toSparseOn (fit M)) := by
    unfold Coo.toSparse Coo.toSparseOn
    rw [hfs, ok_bind, fit_ok (by omega) (by omega)]
    simp only [ok_bind]
    split
    · exact Imp.any _
    refine Imp.bind (Imp.same (P := CountsTo (0 : Nat)) (fun r hr => ?_)) (fun p0 hp0 => ?_)
    · obtain ⟨-, rfl⟩ := mkVec_eq_ok hr
      exact countsTo_replicate _
    refine (Imp.any _).bind (fun im _ => ?_)
    refine Imp.bind (foldlM_imp (fun k st => ∃ q : Nat, q ≤ k ∧ CountsTo q st.1) C.entries 0 (p0, im) ⟨0, le_refl _, hp0⟩
      (fun k st e _ k1 hst => ?_)) (fun st hst => ?_)
    · obtain ⟨q, hq, hst⟩ := hst
      unfold Coo.countStep Coo.countStepOn
      refine (Imp.any _).bind (fun m _ => ?_)
      cases hlk : m.lookup e.2.1 with
      | some v => exact Imp.same (fun r hr => Except.ok.inj hr ▸ ⟨q, by omega, hst⟩)
      | none =>
        simp only
        intro r hr
        obtain ⟨x, hx, hr⟩ := bind_eq_ok.1 hr
        obtain ⟨x0, x1, hw⟩ := hst.inc hx
        rw [hx, ok_bind, fit_ok (by omega) (by omega), ok_bind]
        refine ⟨hr, ?_⟩
        obtain ⟨p, hp, hr⟩ := bind_eq_ok.1 hr
        obtain ⟨ms, -, hr⟩ := bind_eq_ok.1 hr
        obtain rfl := Except.ok.inj hr
        exact ⟨q + 1, by omega, by push_cast; exact hw p hp⟩
    obtain ⟨q, hq, hst⟩ := hst
    refine Imp.bind (P := fun ip => RestTo (q : Int) ((st.1.length : Int) - 1) ip ∧ ip.length = st.1.length) ?_ (fun ip hip => ?_)
    · unfold partialSum Coo.partialSumOn
      have h1 : RestTo (q : Int) 0 st.1 := ⟨hst.1, by rw [Int.toNat_zero, List.drop_zero, hst.2]⟩
      by_cases hl : 0 ≤ (st.1.length : Int) - 1
      · refine forUp_imp (fun i p => RestTo (q : Int) i p ∧ p.length = st.1.length) hl ⟨h1, rfl⟩
          (fun i p i0 _ hp => (hp.1.step (by omega) (by omega) i0).and (fun r hr => ?_))
        obtain ⟨x, -, hr⟩ := bind_eq_ok.1 hr
        obtain ⟨y, -, hr⟩ := bind_eq_ok.1 hr
        rw [ok_bind] at hr
        obtain ⟨-, -, rfl⟩ := wr_eq_ok hr
        simpa using hp.2
      · rw [forUp_nil (by omega), forUp_nil (by omega)]
        refine Imp.same (fun r hr => ?_)
        obtain rfl := Except.ok.inj hr
        refine ⟨⟨h1.1, ?_⟩, rfl⟩
        rw [show ((st.1.length : Int) - 1).toNat = 0 by omega]
        exact h1.2
    refine Imp.bind (Imp.same (P := fun nnz => nnz ≤ (q : Int)) (fun nnz hnnz => ?_)) (fun nnz hnnz => ?_)
    · obtain ⟨-, hx⟩ := rd_eq_ok.1 hnnz
      obtain ⟨hl, hx⟩ := List.getElem?_eq_some_iff.1 hx
      have h2 := hip.1.2
      rw [← hip.2] at h2
      rw [← h2]
      refine le_sum_of_nonneg (fun z hz => hip.1.1 z (List.mem_of_mem_drop hz)) ?_
      rw [← hx, List.drop_eq_getElem_cons hl]
      exact List.mem_cons_self
    refine Imp.bind (Imp.same (P := fun ix => (ix.length : Int) ≤ M) (fun r hr => ?_)) (fun ix hix => ?_)
    · obtain ⟨-, rfl⟩ := mkVec_eq_ok hr
      rw [List.length_replicate]
      omega
    refine (Imp.any _).bind (fun dt _ => ?_)
    refine Imp.bind (foldlM_imp (fun _ out => (out.1.length : Int) ≤ M) C.entries 0 (ix, dt) hix (fun k out e _ _ ho => ?_)) (fun out _ => Imp.any _)
    unfold Coo.fillStep Coo.fillStepOn
    refine (Imp.any _).bind (fun p _ => (Imp.any _).bind (fun m _ => ?_))
    cases hlk : m.lookup e.2.1 with
    | none => exact fun r hr => absurd hr nofun
    | some k =>
      simp only
      intro r hr
      have hr' := hr
      obtain ⟨ix', h1, hr'⟩ := bind_eq_ok.1 hr'
      obtain ⟨d, -, hr'⟩ := bind_eq_ok.1 hr'
      obtain ⟨dt', -, hr'⟩ := bind_eq_ok.1 hr'
      obtain rfl := Except.ok.inj hr'
      obtain ⟨q0, q1, rfl⟩ := wr_eq_ok h1
      rw [fit_ok (by omega) (by omega), ok_bind]
      exact ⟨hr, by simpa using ho⟩
  obtain ⟨A, hA, -⟩ := C17_toSparse C hC
  rw [hA]
  exact (key A hA).1

/-- **C108.**  Without a given size, an entry in row or column `M` makes `FindSize` and so `ToSparse` undefined. -/
theorem C108_coo_size [Zero α] [Add α] (M : Int) (C : Coo α) (hu : C.sizeSet = false) (h : ∃ e ∈ C.entries, e.1 = M ∨ e.2.1 = M) :
    C.findSizeOn (fit M) = .error .undefinedBehaviour ∧ C.toSparseOn (fit M) = .error .undefinedBehaviour := by
  have mono : ∀ (l : List (Int × Int × α)) (m : Int × Int), m.1 ≤ (l.foldl (fun (m : Int × Int) e => (max m.1 e.1, max m.2 e.2.1)) m).1 ∧
      m.2 ≤ (l.foldl (fun (m : Int × Int) e => (max m.1 e.1, max m.2 e.2.1)) m).2 ∧
      ∀ e ∈ l, e.1 ≤ (l.foldl (fun (m : Int × Int) e => (max m.1 e.1, max m.2 e.2.1)) m).1 ∧
        e.2.1 ≤ (l.foldl (fun (m : Int × Int) e => (max m.1 e.1, max m.2 e.2.1)) m).2 := by
    intro l
    induction l with
    | nil => exact fun m => ⟨le_refl _, le_refl _, fun e he => absurd he (by simp)⟩
    | cons a l ih =>
      intro m
      obtain ⟨h1, h2, h3⟩ := ih (max m.1 a.1, max m.2 a.2.1)
      rw [List.foldl_cons]
      refine ⟨(le_max_left _ _).trans h1, (le_max_left _ _).trans h2, fun e he => ?_⟩
      rcases List.mem_cons.1 he with rfl | he
      · exact ⟨(le_max_right _ _).trans h1, (le_max_right _ _).trans h2⟩
      · exact h3 e he
  have hf : C.findSizeOn (fit M) = .error .undefinedBehaviour := by
    unfold Coo.findSizeOn
    rw [hu]
    obtain ⟨e, he, hM⟩ := h
    have := (mono C.entries (0, 0)).2.2 e he
    simp only [Bool.false_eq_true, if_false]
    by_cases h1 : -M - 1 ≤ (C.entries.foldl (fun (m : Int × Int) e => (max m.1 e.1, max m.2 e.2.1)) (0, 0)).1 + 1 ∧
        (C.entries.foldl (fun (m : Int × Int) e => (max m.1 e.1, max m.2 e.2.1)) (0, 0)).1 + 1 ≤ M
    · rw [fit_ok h1.1 h1.2, ok_bind, fit_not (by omega)]
      rfl
    · rw [fit_not h1]
      rfl
  refine ⟨hf, ?_⟩
  unfold Coo.toSparseOn
  rw [hf]
  rfl

/-- **C108.**  A given number of rows must leave room for one more: with `M` rows `ToSparse` is undefined, whatever was added. -/
theorem C108_coo_rows [Zero α] [Add α] (M : Int) (C : Coo α) (hs : C.sizeSet = true) (hr : C.rows = M) :
    C.toSparseOn (fit M) = .error .undefinedBehaviour := by
  have hf : C.findSizeOn (fit M) = .ok (C.rows, C.cols) := by
    unfold Coo.findSizeOn
    rw [hs]
    rfl
  unfold Coo.toSparseOn
  rw [hf, ok_bind, hr, fit_not (by omega)]
  by_cases h : C.entries.isEmpty = true
  · rw [if_pos h]
    rfl
  · rw [if_neg h]
    rfl

/-! ## BlockMatrix -/

/-- **C108.**  `Combine` counts the entries of all blocks: undefined if they are not an `int`, else the count. -/
theorem C108_blocks (M : Int) (hM : 0 ≤ M) (B : BlockMat α) :
    B.nnzTotalLim M = if B.nnzTotal ≤ M then .ok B.nnzTotal else .error .undefinedBehaviour := by
  have row : ∀ (l : List (Csr α)) (s : Int), 0 ≤ s → s ≤ M → s ≤ l.foldl (fun s mat => s + mat.nnz) s ∧
      l.foldlM (fun s mat => fit M (s + mat.nnz)) s =
        if l.foldl (fun s mat => s + mat.nnz) s ≤ M then .ok (l.foldl (fun s mat => s + mat.nnz) s) else .error .undefinedBehaviour := by
    intro l
    induction l with
    | nil => exact fun s _ h => ⟨le_refl _, (if_pos h).symm⟩
    | cons a l ih =>
      intro s s0 s1
      have hn : 0 ≤ a.nnz := Int.natCast_nonneg _
      have mono : ∀ (l : List (Csr α)) (s : Int), s ≤ l.foldl (fun s mat => s + mat.nnz) s := by
        intro l
        induction l with
        | nil => exact fun s => le_refl _
        | cons a l ih => exact fun s => le_trans (by have : 0 ≤ a.nnz := Int.natCast_nonneg _; omega) (ih (s + a.nnz))
      rw [List.foldl_cons, List.foldlM_cons]
      by_cases h : s + a.nnz ≤ M
      · rw [fit_ok (by omega) h, ok_bind]
        have := ih (s + a.nnz) (by omega) h
        exact ⟨by omega, this.2⟩
      · have := mono l (s + a.nnz)
        rw [fit_not (by omega), if_neg (by omega)]
        exact ⟨by omega, rfl⟩
  have mono : ∀ (l : List (Csr α)) (s : Int), s ≤ l.foldl (fun s mat => s + mat.nnz) s := by
    intro l
    induction l with
    | nil => exact fun s => le_refl _
    | cons a l ih => exact fun s => le_trans (by have : 0 ≤ a.nnz := Int.natCast_nonneg _; omega) (ih (s + a.nnz))
  have monos : ∀ (ls : List (List (Csr α))) (s : Int), s ≤ ls.foldl (fun s row => row.foldl (fun s mat => s + mat.nnz) s) s := by
    intro ls
    induction ls with
    | nil => exact fun s => le_refl _
    | cons l ls ih => exact fun s => le_trans (mono l s) (ih _)
  have rows : ∀ (ls : List (List (Csr α))) (s : Int), 0 ≤ s → s ≤ M →
      ls.foldlM (fun s row => row.foldlM (fun s mat => fit M (s + mat.nnz)) s) s =
        if ls.foldl (fun s row => row.foldl (fun s mat => s + mat.nnz) s) s ≤ M then .ok (ls.foldl (fun s row => row.foldl (fun s mat => s + mat.nnz) s) s)
        else .error .undefinedBehaviour := by
    intro ls
    induction ls with
    | nil => exact fun s _ h => (if_pos h).symm
    | cons l ls ih =>
      intro s s0 s1
      obtain ⟨h1, h2⟩ := row l s s0 s1
      rw [List.foldl_cons, List.foldlM_cons, h2]
      by_cases h : l.foldl (fun s mat => s + mat.nnz) s ≤ M
      · rw [if_pos h, ok_bind]
        exact ih _ (by omega) h
      · have := monos ls (l.foldl (fun s mat => s + mat.nnz) s)
        rw [if_neg h, if_neg (by omega)]
        rfl
  exact rows B.blocks 0 (le_refl _) hM

/-! ## Examples (with a small `M`) -/

/-- C108: a dense matrix of 46341 rows and columns cannot be built with 32 bits; 3 by 4 with `M = 12` can, 3 by 5 not. -/
example : Dense.zerosLim (α := Int) intMax 46341 46341 = .error .undefinedBehaviour ∧
    Dense.zerosLim (α := Int) 12 3 4 = Dense.zeros 3 4 ∧ Dense.zerosLim (α := Int) 12 3 5 = .error .undefinedBehaviour := by
  refine ⟨?_, by decide, by decide⟩
  rw [C108_dense_new intMax 46341 46341 (by decide) (by decide) (by decide), if_neg (by decide)]

/-- C108: with `M = 3` (three bits) ten elements are accepted for two. -/
example : Dense.ofDataLim 3 1 2 (List.replicate 10 (0 : Int)) = .ok ⟨1, 2, List.replicate 10 0⟩ := by decide

/-- C108: a matrix that can be transposed but not made dense. -/
example : ∃ A : Csr Int, A.WF ∧ A.transposeOn (fit 5) = A.transpose ∧ A.toDenseIntoLim 5 Dense.empty = .error .undefinedBehaviour :=
  ⟨⟨3, 3, [0, 1, 2, 3], [1, 2, 0], [7, 8, 9]⟩, by decide, by decide, by decide⟩

/-- C108: a product with 4 entries of matrices with 2. -/
example : (onesCol 2).multSparseOn (fit 4) (onesRow 2) [] = (onesCol 2).multSparse (onesRow 2) ∧
    (onesCol 2).multSparseOn (fit 3) (onesRow 2) [] = .error .undefinedBehaviour := by
  refine ⟨by decide, by decide⟩

/-- C108: coordinates. -/
example : ∃ C : Coo Int, C.WF ∧ C.toSparseOn (fit 6) = C.toSparse ∧ C.toSparseOn (fit 4) = .error .undefinedBehaviour :=
  ⟨⟨0, 0, false, [(0, 4, 1), (2, 1, 5), (2, 1, 6)]⟩, by decide, by decide, by decide⟩

/-- C108: an empty coordinate matrix with as many rows as an `int` can count. -/
example : (⟨4, 0, true, []⟩ : Coo Int).toSparseOn (fit 4) = .error .undefinedBehaviour ∧
    (⟨4, 0, true, []⟩ : Coo Int).toSparseOn (fit 5) = (⟨4, 0, true, []⟩ : Coo Int).toSparse := by decide

end Linalg
