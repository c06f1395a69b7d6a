import Verif.Proof.Print
import Verif.Proof.Transpose
import Verif.Props.SparseDense
import Verif.Props.Block
import Verif.Proof.Mixed

/-!
# C110: what the `Print` functions write
-/

namespace Linalg
open Cpp Io Print

variable {α : Type}

/-! ## C110 -/

theorem entryText (fl : Flags) (T : Text) (i j : Int) (F : Show α) (v : α) :
    ((((((((⟨T, 0, fl⟩ : OStream).put "(".toList).val intShow i).put ", ".toList).val intShow j).put ") ".toList).val F v).put "\n".toList)
      = ⟨T ++ (entryLine fl.left 0 (i, j, F fl v) ++ ['\n']), 0, fl⟩ := by
  simp [entryLine, intShow]

/-- A well-formed sparse matrix prints its label, in the field that the stream may have a width for, a line for each stored entry in the order of
storage, with the value in a field of six characters, and an empty line.  The formatting state of the stream is not changed. -/
theorem C110_sparse (F : Show α) (A : Csr α) (hA : A.WF) (label : Text) (out : OStream) :
    A.print F label out = .ok (out.wrote (section_ out.flags.left 6 (out.field label) (shown F out.flags (entries A)))) := by
  obtain ⟨n, rs, hn, hrs, rfl⟩ := hA.exists_rows
  rw [entries_ofRows]
  unfold Csr.print
  simp only
  rw [rowLoop_ofRows n rs _ _ (fun i e out =>
    .ok ((((((((out.put "(".toList).val intShow i).put ", ".toList).val intShow e.1).put ") ".toList).setw 6).val F e.2).put "\n".toList))]
  · rw [put_eq out label, OStream.wrote, put_mk,
      foldlM_write out.flags _ (fun t => entryLine out.flags.left 6 (t.1, t.2.1, F out.flags t.2.2) ++ ['\n'])]
    · rw [ok_bind, put_mk, flatMap_lines]
      simp only [OStream.wrote, section_, lines_append, shown, List.map_map, List.append_assoc]
      congr 2
    · intro T b _
      simp [entryLine, intShow]
  · intro k m hk hm s
    rw [rd_indices_ofRows n rs k m hk hm, ok_bind, rd_data_ofRows n rs k m hk hm, ok_bind]

/-- The same for a coordinate matrix; the values are not in fields. -/
theorem C110_coo (F : Show α) (C : Coo α) (label : Text) (out : OStream) :
    C.print F label out = out.wrote (section_ out.flags.left 0 (out.field label) (shown F out.flags C.entries)) := by
  unfold Coo.print
  simp only
  rw [put_eq out label, OStream.wrote, put_mk,
    foldl_write out.flags _ (fun t : Int × Int × α => entryLine out.flags.left 0 (t.1, t.2.1, F out.flags t.2.2) ++ ['\n'])
      (fun T b => entryText out.flags T b.1 b.2.1 F b.2.2)]
  rw [put_mk, flatMap_lines]
  simp only [OStream.wrote, section_, lines_append, shown, List.map_map, List.append_assoc]
  congr 2

/-- The same for a list of lists. -/
theorem C110_lil (F : Show α) (L : Lil α) (label : Text) (out : OStream) :
    L.print F label out = .ok (out.wrote (section_ out.flags.left 0 (out.field label) (shown F out.flags L.triples))) := by
  unfold Lil.print
  simp only
  rw [put_eq out label, OStream.wrote, put_mk,
    forUp_write out.flags _ _ (fun k => (L.entries.getD k []).flatMap (fun e => entryLine out.flags.left 0 ((k : Int), e.1, F out.flags e.2) ++ ['\n']))]
  · rw [ok_bind, put_mk]
    have e : (List.range L.entries.length).flatMap
        (fun k => (L.entries.getD k []).flatMap (fun e => entryLine out.flags.left 0 ((k : Int), e.1, F out.flags e.2) ++ ['\n']))
        = lines ((shown F out.flags L.triples).map (entryLine out.flags.left 0)) := by
      rw [← flatMap_lines]
      unfold shown Lil.triples
      rw [List.flatMap_map, List.flatMap_assoc, List.zipIdx_eq_zip_range']
      have e2 : L.entries.zip (List.range' 0 L.entries.length) = (List.range L.entries.length).map (fun k => (L.entries.getD k [], k)) := by
        apply List.ext_getElem
        · simp
        · intro i h1 h2
          simp at h1 h2
          simp [h1]
      rw [e2, List.flatMap_map]
      congr 1
      funext k
      rw [List.flatMap_map]
    rw [e]
    simp only [OStream.wrote, section_, lines_append, List.append_assoc]
    congr 2
  · intro T k hk
    rw [rd_nat (by omega), ok_bind]
    rw [foldl_write out.flags _ (fun e : Int × α => entryLine out.flags.left 0 ((k : Int), e.1, F out.flags e.2) ++ ['\n'])
      (fun T b => entryText out.flags T k b.1 F b.2)]
    simp [hk]

/-- A vector prints its label, its elements, one on a line, and an empty line. -/
theorem C110_vector (F : Show α) (x : List α) (label : Text) (out : OStream) :
    Vec.print F x label out = .ok (out.wrote (out.field label ++ '\n' :: lines (x.map (F out.flags) ++ [[]]))) := by
  unfold Vec.print
  simp only
  rw [put_eq out label, OStream.wrote, put_mk, forUp_write out.flags _ _ (fun k => (x[k]?.map (F out.flags)).getD [] ++ ['\n'])]
  · rw [ok_bind, put_mk]
    have e : (List.range x.length).flatMap (fun k => (x[k]?.map (F out.flags)).getD [] ++ ['\n']) = lines (x.map (F out.flags)) := by
      rw [flatMap_lines]
      congr 1
      apply List.ext_getElem
      · simp
      · intro i h1 h2
        simp at h1 h2
        simp [h1]
    rw [e]
    simp only [OStream.wrote, lines_append, List.append_assoc]
    congr 2
  · intro T k hk
    rw [rd_nat hk, ok_bind]
    simp [hk]

/-- A `std::vector` is printed as a vector is with an empty label, if the stream has no width from before. -/
theorem C110_stdVector (F : Show α) (x : List α) (out : OStream) :
    Print.stdVec F x out = out.wrote (out.field ['\n'] ++ lines (x.map (F out.flags) ++ [[]])) ∧
    (out.width = 0 → Vec.print F x [] out = .ok (Print.stdVec F x out)) := by
  have h : Print.stdVec F x out = out.wrote (out.field ['\n'] ++ lines (x.map (F out.flags) ++ [[]])) := by
    unfold Print.stdVec
    simp only
    rw [put_eq out, OStream.wrote, foldl_write out.flags _ (fun v => F out.flags v ++ ['\n']) (by intro T b; simp), put_mk, flatMap_lines]
    simp only [OStream.wrote, lines_append, List.append_assoc]
    congr 2
  refine ⟨h, fun hw => ?_⟩
  rw [h, C110_vector]
  simp [OStream.field, hw]

/-- A dense matrix makes its text apart from the stream, so neither its width nor its formatting state changes how numbers look: a line for each
row, with the numbers in fields of the given width and with nothing between the fields, and an empty line. The text as a whole is one value for the
stream. -/
theorem C110_dense (F : Show α) (D : Dense α) (m n : Nat) (f : Int → Int → α) (hD : D.Is m n f) (label : Text) (out : OStream) (width precision : Int) :
    D.print F label out width precision = .ok (out.wrote (out.field (label ++ '\n' :: lines ((List.range m).map (fun i : Nat =>
      (List.range n).flatMap (fun j : Nat => pad false width (F (denseFlags precision) (f i j)))) ++ [[]])))) := by
  have key : D.printText F label width precision = .ok (label ++ '\n' :: lines ((List.range m).map (fun i : Nat =>
      (List.range n).flatMap (fun j : Nat => pad false width (F (denseFlags precision) (f i j)))) ++ [[]])) := by
    unfold Dense.printText
    simp only
    rw [hD.rows_eq, hD.cols_eq, OStream.new, put_mk, put_mk]
    have H := forUp_write' m (fun i ss => do
        let ss ← forUp 0 (n : Int) ss (fun j ss => do
          let v ← D.get i j
          .ok ((((ss.setw width).setprecision precision).fixed).val F v))
        .ok (ss.put "\n".toList))
      (fun i : Nat => (List.range n).flatMap (fun j : Nat => pad false width (F (denseFlags precision) (f i j))) ++ ['\n']) ?_
      ([] ++ label ++ "\n".toList) Flags.new rfl
    · obtain ⟨fl', _, e⟩ := H
      rw [e, ok_bind, put_mk, flatMap_lines]
      simp [lines]
    · intro T fl i hi hfl
      have H := forUp_write' n (fun j ss => do
          let v ← D.get i j
          .ok ((((ss.setw width).setprecision precision).fixed).val F v))
        (fun j : Nat => pad false width (F (denseFlags precision) (f i j))) ?_ T fl hfl
      · obtain ⟨fl', h1, e⟩ := H
        refine ⟨fl', h1, ?_⟩
        rw [e, ok_bind, put_mk]
        simp
      · intro T fl j hj hfl
        refine ⟨denseFlags precision, rfl, ?_⟩
        rw [hD.get_eq i j (by omega) (by omega) (by omega) (by omega), ok_bind]
        simp [OStream.setw, OStream.setprecision, OStream.fixed, OStream.val, OStream.put, denseFlags, hfl]
  unfold Dense.print
  rw [key, ok_bind]
  rfl

/-- `PrintDense` prints, for each position, the value that was stored last there. -/
theorem C110_printDense [Zero α] (F : Show α) (A : Csr α) (hA : A.WF) (label : Text) (out : OStream) :
    A.printDense F label out = .ok (out.wrote (out.field (label ++ '\n' :: lines ((List.range A.rows.toNat).map (fun i : Nat =>
      (List.range A.cols.toNat).flatMap (fun j : Nat => pad false 8 (F (denseFlags 4) (A.lastAt i j)))) ++ [[]])))) := by
  obtain ⟨E, h1, h2⟩ := C06_toDense_last A hA
  unfold Csr.printDense
  rw [h1, ok_bind]
  have h3 : E.Is (A.rows.toNat : Int) (A.cols.toNat : Int) A.lastAt := by
    rw [Int.toNat_of_nonneg hA.rows_nonneg, Int.toNat_of_nonneg hA.cols_nonneg]
    exact h2
  exact C110_dense F E _ _ A.lastAt h3 label out 8 4

theorem labelText (a b c : Text) (i j : Int) :
    (((((OStream.new.put a).val intShow i).put b).val intShow j).put c).text = a ++ showInt i ++ b ++ showInt j ++ c := by
  simp [OStream.new, intShow]

theorem blockLabel_text (i j : Int) :
    (((((OStream.new.put "block (".toList).val intShow i).put ",".toList).val intShow j).put ")".toList).text = blockLabel i j :=
  labelText _ _ _ i j

/-- A block matrix prints its label and then its blocks, row by row, under labels that say which block it is; there is no empty line at the end but
that of the last block. -/
theorem C110_block (F : Show α) (B : BlockMat α) (hB : B.WF) (label : Text) (out : OStream) :
    B.print F label out = .ok (out.wrote (out.field label ++ '\n' :: (List.range B.nI.toNat).flatMap (fun i : Nat =>
      (List.range B.nJ.toNat).flatMap (fun j : Nat =>
        section_ out.flags.left 6 (blockLabel i j) (shown F out.flags (entries (B.blk i j))))))) := by
  have hI : (B.rowOff.length : Int) - 1 = (B.nI.toNat : Int) := by
    have := hB.rowOff_ok.length_pos
    unfold BlockMat.nI; omega
  have hJ : (B.colOff.length : Int) - 1 = (B.nJ.toNat : Int) := by
    have := hB.colOff_ok.length_pos
    unfold BlockMat.nJ; omega
  unfold BlockMat.print
  simp only
  rw [hI, hJ, put_eq out label, OStream.wrote, put_mk,
    forUp_write out.flags _ _ (fun i : Nat => (List.range B.nJ.toNat).flatMap (fun j : Nat =>
      section_ out.flags.left 6 (blockLabel i j) (shown F out.flags (entries (B.blk i j)))))]
  · simp [OStream.wrote]
  · intro T i hi
    rw [forUp_write out.flags _ _ (fun j : Nat =>
      section_ out.flags.left 6 (blockLabel i j) (shown F out.flags (entries (B.blk i j))))]
    intro T j hj
    have e := hB.at_eq (i := i) (j := j) (by omega) (by omega) (by omega) (by omega)
    unfold BlockMat.at' at e
    obtain ⟨r, e1, e2⟩ := bind_eq_ok.mp e
    rw [e1, ok_bind, e2, ok_bind, C110_sparse F _ (hB.blk_wf i j), blockLabel_text]
    simp only [OStream.wrote, OStream.field, pad_zero]

/-- A matrix of a parallel computation prints its two parts and its column map. -/
theorem C110_par (F : Show α) (M : ParMat α) (hd : M.diag.WF) (ho : M.offd.WF) (label : Text) (out : OStream) :
    M.print F label out = .ok (out.wrote (out.field label ++ '\n' ::
      (section_ out.flags.left 6 "Diag:".toList (shown F out.flags (entries M.diag)) ++
        section_ out.flags.left 6 "Offd:".toList (shown F out.flags (entries M.offd)) ++
        "ColMap:\n".toList ++ lines (M.colMap.map showInt ++ [[]])))) := by
  unfold ParMat.print
  simp only
  rw [C110_sparse F _ hd, ok_bind, C110_sparse F _ ho, ok_bind, (C110_stdVector intShow _ _).1]
  simp only [OStream.wrote, OStream.field, pad_zero, OStream.put]
  simp only [section_, List.append_assoc, List.cons_append, intShow]
  rfl

/-! ### What the text determines -/

theorem entries_inj {A B : Csr α} (hA : A.WF) (hB : B.WF) (hr : A.rows = B.rows) (hc : A.cols = B.cols) (h : entries A = entries B) : A = B := by
  obtain ⟨n, rs, hn, hrs, rfl⟩ := hA.exists_rows
  obtain ⟨n', ss, hn', hss, rfl⟩ := hB.exists_rows
  rw [entries_ofRows, entries_ofRows] at h
  have e1 : n = n' := hc
  have e2 : rs.length = ss.length := by simpa [Csr.ofRows] using hr
  have e3 : rs = ss := by
    apply List.ext_getElem e2
    intro k h1 h2
    rw [← filter_triplesL rs k h1, ← filter_triplesL ss k h2, h]
  rw [e1, e3]

theorem Csr.mem_row_data {A : Csr α} {i : Int} {e : Int × α} (he : e ∈ A.row i) : e.2 ∈ A.data := by
  unfold Csr.row at he
  split at he
  · have h := List.mem_of_mem_drop (List.mem_of_mem_take he)
    exact (List.of_mem_zip (a := e.1) (b := e.2) h).2
  · cases he

theorem shown_entries (F : Show α) (fl : Flags) (A : Csr α) : shown F fl (entries A) = entries (A.withData (F fl)) := by
  unfold shown entries
  rw [List.map_flatMap]
  congr 1
  funext i
  rw [Csr.row_withData]
  simp

/-- The text of a sparse matrix, given its size, determines which entries are stored and in which order, and how the values look. -/
theorem C110_sparse_determines (F : Show α) (A B : Csr α) (hA : A.WF) (hB : B.WF) (hr : A.rows = B.rows) (hc : A.cols = B.cols) (label : Text)
    (out : OStream) (wA : ∀ v ∈ A.data, Word (F out.flags v)) (wB : ∀ v ∈ B.data, Word (F out.flags v))
    (h : A.print F label out = B.print F label out) :
    A.indptr = B.indptr ∧ A.indices = B.indices ∧ A.data.map (F out.flags) = B.data.map (F out.flags) := by
  have key : ∀ (M : Csr α), M.WF → (∀ v ∈ M.data, Word (F out.flags v)) → ∀ e ∈ shown F out.flags (entries M), Word e.2.2 := by
    intro M hM w e he
    obtain ⟨x, hx, rfl⟩ := List.mem_map.mp he
    exact w _ (by
      obtain ⟨i, _, hi⟩ := List.mem_flatMap.mp hx
      obtain ⟨y, hy, rfl⟩ := List.mem_map.mp hi
      exact Csr.mem_row_data hy)
  rw [C110_sparse F A hA, C110_sparse F B hB] at h
  simp only [Except.ok.injEq, OStream.wrote, OStream.mk.injEq, List.append_cancel_left_eq, and_true] at h
  have e := section_inj (key A hA wA) (key B hB wB) h
  rw [shown_entries, shown_entries] at e
  have := entries_inj (Csr.withData_wf hA (F out.flags)) (Csr.withData_wf hB (F out.flags)) hr hc e
  simp only [Csr.withData, Csr.mk.injEq] at this
  exact ⟨this.2.2.1, this.2.2.2.1, this.2.2.2.2⟩

/-- If values that look the same are the same, the text of a sparse matrix and its size determine the matrix. -/
theorem C110_sparse_injective (F : Show α) (A B : Csr α) (hA : A.WF) (hB : B.WF) (hr : A.rows = B.rows) (hc : A.cols = B.cols) (label : Text)
    (out : OStream) (hF : ∀ v, Word (F out.flags v)) (hi : ∀ v w, F out.flags v = F out.flags w → v = w)
    (h : A.print F label out = B.print F label out) : A = B := by
  obtain ⟨h1, h2, h3⟩ := C110_sparse_determines F A B hA hB hr hc label out (fun v _ => hF v) (fun v _ => hF v) h
  have h4 : A.data = B.data := List.map_injective_iff.mpr (fun v w e => hi v w e) h3
  cases A; cases B
  simp only at h1 h2 h4 hr hc
  subst h1 h2 h4 hr hc
  rfl

/-- The size is not in the text: matrices of different sizes print the same. -/
theorem C110_sparse_size_false : ∃ A B : Csr Int, A.WF ∧ B.WF ∧ A.rows ≠ B.rows ∧ A.cols ≠ B.cols ∧
    ∀ (F : Show Int) (label : Text) (out : OStream), A.print F label out = B.print F label out := by
  refine ⟨⟨1, 1, [0, 1], [0], [5]⟩, ⟨2, 3, [0, 1, 1], [0], [5]⟩, by decide, by decide, by decide, by decide, fun F label out => ?_⟩
  rw [C110_sparse F _ (by decide), C110_sparse F _ (by decide)]
  rfl

/-- The text of a coordinate matrix determines its entries and their order, as far as they look different. -/
theorem C110_coo_determines (F : Show α) (C D : Coo α) (label : Text) (out : OStream) (hF : ∀ v, Word (F out.flags v))
    (h : C.print F label out = D.print F label out) : shown F out.flags C.entries = shown F out.flags D.entries := by
  rw [C110_coo, C110_coo] at h
  simp only [OStream.wrote, OStream.mk.injEq, List.append_cancel_left_eq, and_true] at h
  refine section_inj ?_ ?_ h <;> (intro e he; obtain ⟨x, _, rfl⟩ := List.mem_map.mp he; exact hF _)

/-- The text of a list of lists determines its rows, if their number is known, as far as the values look different. -/
theorem C110_lil_determines (F : Show α) (L M : Lil α) (label : Text) (out : OStream) (hF : ∀ v, Word (F out.flags v))
    (hlen : L.entries.length = M.entries.length) (h : L.print F label out = M.print F label out) :
    L.entries.map (List.map (fun e => (e.1, F out.flags e.2))) = M.entries.map (List.map (fun e => (e.1, F out.flags e.2))) := by
  have key : ∀ K : Lil α, shown F out.flags K.triples = triplesL (K.entries.map (List.map (fun e => (e.1, F out.flags e.2)))) := by
    intro K
    unfold shown Lil.triples triplesL
    rw [List.zipIdx_map, List.map_map, List.flatMap_def, List.map_flatten, List.map_map]
    congr 2
    funext p
    simp
  rw [C110_lil, C110_lil] at h
  simp only [Except.ok.injEq, OStream.wrote, OStream.mk.injEq, List.append_cancel_left_eq, and_true] at h
  have e : shown F out.flags L.triples = shown F out.flags M.triples := by
    refine section_inj ?_ ?_ h <;> (intro e he; obtain ⟨x, _, rfl⟩ := List.mem_map.mp he; exact hF _)
  rw [key, key] at e
  apply List.ext_getElem (by simpa using hlen)
  intro k h1 h2
  rw [← filter_triplesL _ k h1, ← filter_triplesL _ k h2, e]

/-- The number of rows of a list of lists is not in the text. -/
theorem C110_lil_size_false : ∃ L M : Lil Int, L.entries.length ≠ M.entries.length ∧
    ∀ (F : Show Int) (label : Text) (out : OStream), L.print F label out = M.print F label out := by
  refine ⟨⟨1, 1, true, [[(0, 5)]]⟩, ⟨2, 1, true, [[(0, 5)], []]⟩, by decide, fun F label out => ?_⟩
  rw [C110_lil, C110_lil]
  rfl

/-- A coordinate matrix and the sparse matrix made from it do not print the same. -/
theorem C110_coo_sparse_false : ∃ (C : Coo Int) (A : Csr Int), C.toSparse = .ok A ∧
    Except.ok (C.print intShow [] OStream.new) ≠ A.print intShow [] OStream.new := by
  refine ⟨⟨1, 1, true, [(0, 0, 5)]⟩, ⟨1, 1, [0, 1], [0], [5]⟩, by decide +kernel, by decide +kernel⟩

/-- The text of a vector determines its elements, and so its size, as far as they look different. -/
theorem C110_vector_determines (F : Show α) (x y : List α) (label : Text) (out : OStream) (hF : ∀ v, '\n' ∉ F out.flags v)
    (h : Vec.print F x label out = Vec.print F y label out) : x.map (F out.flags) = y.map (F out.flags) := by
  rw [C110_vector, C110_vector] at h
  simp only [Except.ok.injEq, OStream.wrote, OStream.mk.injEq, List.append_cancel_left_eq, and_true, List.cons.injEq, true_and] at h
  have key : ∀ z : List α, ∀ l ∈ z.map (F out.flags) ++ [[]], '\n' ∉ l := by
    intro z l hl
    rcases List.mem_append.mp hl with hl | hl
    · obtain ⟨v, _, rfl⟩ := List.mem_map.mp hl; exact hF v
    · simp at hl; subst hl; simp
  exact List.append_cancel_right (lines_inj (key x) (key y) h)

/-- A number in fixed notation is off by at most half a unit of the last place, and has neither spaces nor newlines in it. -/
theorem C110_fixed (precision : Int) (hp : 0 ≤ precision) (q : ℚ) :
    |textVal (fixedText precision q) - q| ≤ 1 / 2 / 10 ^ precision.toNat ∧ Word (fixedText precision q) := by
  refine ⟨?_, fixedText_word precision q⟩
  have := textVal_fixedText precision q
  rwa [places, if_neg (by omega)] at this

/-- The text of a dense matrix with digits after the point, given its size, determines the entries up to one unit of the last place, although there
may be no space between the numbers. -/
theorem C110_dense_determines (G : Show ℚ) (D E : Dense ℚ) (m n : Nat) (f g : Int → Int → ℚ) (hD : D.Is m n f) (hE : E.Is m n g) (label : Text)
    (out : OStream) (ho : out.width = 0) (width precision : Int) (hp : 0 < precision)
    (h : D.print (ratShow G) label out width precision = E.print (ratShow G) label out width precision) (i j : Nat) (hi : i < m) (hj : j < n) :
    fixedText precision (f i j) = fixedText precision (g i j) ∧ |f i j - g i j| ≤ 1 / 10 ^ precision.toNat := by
  have e1 : fixedText precision (f i j) = fixedText precision (g i j) := by
    rw [C110_dense _ D m n f hD, C110_dense _ E m n g hE] at h
    simp only [Except.ok.injEq, OStream.wrote, OStream.field, ho, pad_zero, OStream.mk.injEq, List.append_cancel_left_eq, and_true, List.cons.injEq,
      true_and] at h
    have sh : ∀ q, ratShow G (denseFlags precision) q = fixedText precision q := fun q => rfl
    simp only [sh] at h
    have nl : ∀ (f : Int → Int → ℚ), ∀ l ∈ (List.range m).map (fun i : Nat => (List.range n).flatMap (fun j : Nat =>
        pad false width (fixedText precision (f i j)))) ++ [[]], '\n' ∉ l := by
      intro f l hl
      rcases List.mem_append.mp hl with hl | hl
      · obtain ⟨i, _, rfl⟩ := List.mem_map.mp hl
        intro hc
        obtain ⟨j, _, hc⟩ := List.mem_flatMap.mp hc
        exact not_mem_pad (by decide) (fixedText_word precision _).2 hc
      · simp at hl; subst hl; simp
    have e := List.append_cancel_right (lines_inj (nl f) (nl g) h)
    have e2 := congrArg (fun l => l[i]?) e
    simp only [List.getElem?_map, List.getElem?_range hi, Option.map_some, Option.some.injEq] at e2
    have e3 := fields_inj (w := width) (p := places precision) (ts := (List.range n).map (fun j : Nat => fixedText precision (f i j)))
      (us := (List.range n).map (fun j : Nat => fixedText precision (g i j))) (by simp)
      (by intro t ht; obtain ⟨j, _, rfl⟩ := List.mem_map.mp ht; exact ⟨(fixedText_word _ _).1, fixedText_split (by omega) _⟩)
      (by intro t ht; obtain ⟨j, _, rfl⟩ := List.mem_map.mp ht; exact ⟨(fixedText_word _ _).1, fixedText_split (by omega) _⟩)
      (by rw [List.flatMap_map, List.flatMap_map]; exact e2)
    have e4 := congrArg (fun l => l[j]?) e3
    simpa [hj] using e4
  refine ⟨e1, ?_⟩
  have h1 := (C110_fixed precision hp.le (f i j)).1
  have h2 := (C110_fixed precision hp.le (g i j)).1
  rw [e1] at h1
  have h3 : (1 : ℚ) / 10 ^ precision.toNat = 1 / 2 / 10 ^ precision.toNat + 1 / 2 / 10 ^ precision.toNat := by ring
  rw [h3]
  rw [abs_sub_comm] at h1
  calc |f i j - g i j| = |(f i j - textVal (fixedText precision (g i j))) + (textVal (fixedText precision (g i j)) - g i j)| := by ring_nf
    _ ≤ _ := (abs_add_le _ _).trans (add_le_add h1 h2)

/-- Without digits after the point and in fields that are too small it does not. -/
theorem C110_dense_precision_false : ∃ D E : Dense ℚ, D.WF ∧ E.WF ∧ D.rows = E.rows ∧ D.cols = E.cols ∧ D ≠ E ∧
    D.print (ratShow (fun _ _ => [])) [] OStream.new 1 0 = E.print (ratShow (fun _ _ => [])) [] OStream.new 1 0 := by
  refine ⟨⟨1, 2, [1, 23]⟩, ⟨1, 2, [12, 3]⟩, by decide, by decide, rfl, rfl, by decide +kernel, by decide +kernel⟩

/-- With the default width and precision, a number from 1000 on, or from -100 down, is not kept apart from the one before it. -/
theorem C110_dense_space_false : ∃ D : Dense ℚ, D.WF ∧
    D.print (ratShow (fun _ _ => [])) [] OStream.new = .ok ⟨"\n  1.00001000.0000-100.0000\n\n".toList, 0, Flags.new⟩ := by
  refine ⟨⟨1, 3, [1, 1000, -100]⟩, by decide, by decide +kernel⟩

/-- Texts of sections, one for each element of a list, whatever follows. -/
theorem sections_inj {β : Type} {l : Bool} {w : Int} {lab : β → Text} {f g : β → List (Int × Int × Text)} (L : List β)
    (hf : ∀ b ∈ L, ∀ e ∈ f b, Word e.2.2) (hg : ∀ b ∈ L, ∀ e ∈ g b, Word e.2.2)
    (h : L.flatMap (fun b => section_ l w (lab b) (f b)) = L.flatMap (fun b => section_ l w (lab b) (g b))) : ∀ b ∈ L, f b = g b := by
  induction L with
  | nil => intro b hb; cases hb
  | cons x L ih =>
    rw [List.flatMap_cons, List.flatMap_cons] at h
    obtain ⟨h1, h2⟩ := section_append_inj (hf x (by simp)) (hg x (by simp)) h
    intro b hb
    rcases List.mem_cons.mp hb with rfl | hb
    · exact h1
    · exact ih (fun b hb => hf b (by simp [hb])) (fun b hb => hg b (by simp [hb])) h2 b hb

/-- The text of a block matrix, given the number of its blocks, determines the entries stored in each block, as far as they look different. -/
theorem C110_block_determines (F : Show α) (B C : BlockMat α) (hB : B.WF) (hC : C.WF) (hI : B.nI = C.nI) (hJ : B.nJ = C.nJ) (label : Text)
    (out : OStream) (hF : ∀ v, Word (F out.flags v)) (h : B.print F label out = C.print F label out) (i j : Int) (i0 : 0 ≤ i) (i1 : i < B.nI)
    (j0 : 0 ≤ j) (j1 : j < B.nJ) : shown F out.flags (entries (B.blk i j)) = shown F out.flags (entries (C.blk i j)) := by
  rw [C110_block F B hB, C110_block F C hC, ← hI, ← hJ] at h
  simp only [Except.ok.injEq, OStream.wrote, OStream.mk.injEq, List.append_cancel_left_eq, and_true, List.cons.injEq, true_and] at h
  have flat : ∀ (g : Nat → Nat → Text), (List.range B.nI.toNat).flatMap (fun i => (List.range B.nJ.toNat).flatMap (g i))
      = ((List.range B.nI.toNat).flatMap (fun i => (List.range B.nJ.toNat).map (fun j => (i, j)))).flatMap (fun p => g p.1 p.2) := by
    intro g
    rw [List.flatMap_assoc]
    congr 1
    funext i
    rw [List.flatMap_map]
  rw [flat (fun i j => section_ out.flags.left 6 (blockLabel i j) (shown F out.flags (entries (B.blk i j)))),
    flat (fun i j => section_ out.flags.left 6 (blockLabel i j) (shown F out.flags (entries (C.blk i j))))] at h
  have w : ∀ (M : Csr α), ∀ e ∈ shown F out.flags (entries M), Word e.2.2 := by
    intro M e he; obtain ⟨x, _, rfl⟩ := List.mem_map.mp he; exact hF _
  have key := sections_inj (lab := fun p : Nat × Nat => blockLabel p.1 p.2)
    (f := fun p => shown F out.flags (entries (B.blk p.1 p.2))) (g := fun p => shown F out.flags (entries (C.blk p.1 p.2))) _
    (fun b _ => w _) (fun b _ => w _) h (i.toNat, j.toNat) (by simp; omega)
  simpa [Int.toNat_of_nonneg i0, Int.toNat_of_nonneg j0] using key

/-! ### Examples -/

example : ({ rows := 2, cols := 3, indptr := [0, 2, 3], indices := [0, 2, 1], data := [1, -20, 1234567] } : Csr Int).WF ∧
    ({ rows := 2, cols := 3, indptr := [0, 2, 3], indices := [0, 2, 1], data := [1, -20, 1234567] } : Csr Int).print intShow "A:".toList OStream.new
      = .ok ⟨"A:\n(0, 0)      1\n(0, 2)    -20\n(1, 1) 1234567\n\n".toList, 0, Flags.new⟩ := by decide +kernel

/-- Values of `int` satisfy the conditions of the theorems above. -/
example (fl : Flags) : (∀ v, Word (intShow fl v)) ∧ ∀ v w, intShow fl v = intShow fl w → v = w :=
  ⟨fun v => ⟨not_mem_showInt rfl (by decide) v, nl_not_showInt v⟩, fun _ _ h => showInt_inj h⟩

example : Coo.print intShow ⟨2, 2, true, [(1, 0, 7), (0, 0, -1)]⟩ "C".toList OStream.new = ⟨"C\n(1, 0) 7\n(0, 0) -1\n\n".toList, 0, Flags.new⟩ ∧
    Lil.print intShow ⟨2, 2, true, [[(0, -1)], [(0, 7), (0, 8)]]⟩ "L".toList OStream.new
      = .ok ⟨"L\n(0, 0) -1\n(1, 0) 7\n(1, 0) 8\n\n".toList, 0, Flags.new⟩ ∧
    Vec.print intShow [3, 4] "x".toList ⟨[], 3, Flags.new⟩ = .ok ⟨"  x\n3\n4\n\n".toList, 0, Flags.new⟩ ∧
    Print.stdVec intShow [3, 4] OStream.new = ⟨"\n3\n4\n\n".toList, 0, Flags.new⟩ := by decide +kernel

example : Dense.print (ratShow (fun _ _ => [])) ⟨2, 2, [1, -1/3, 2/3, 1/80000]⟩ "D".toList OStream.new
    = .ok ⟨"D\n  1.0000  0.6667\n -0.3333  0.0000\n\n".toList, 0, Flags.new⟩ ∧
    Csr.printDense (ratShow (fun _ _ => [])) ⟨1, 2, [0, 1], [1], [5/2]⟩ "S".toList OStream.new = .ok ⟨"S\n  0.0000  2.5000\n\n".toList, 0, Flags.new⟩ := by
  decide +kernel

/-- Ties go to the even digit, and small negative numbers keep their sign. -/
example : fixedText 0 (5/2) = "2".toList ∧ fixedText 0 (7/2) = "4".toList ∧ fixedText 2 (-1/1000) = "-0.00".toList ∧
    fixedText (-1) (1/3) = "0.333333".toList ∧ textVal "-12.50".toList = -25/2 := by decide +kernel

example : ({ rows := 2, cols := 1, rowOff := [0, 1, 2], colOff := [0, 1], blocks := [[⟨1, 1, [0, 1], [0], [5]⟩], [Csr.empty]] } : BlockMat Int).print
    intShow "B".toList OStream.new = .ok ⟨"B\nblock (0,0)\n(0, 0)      5\n\nblock (1,0)\n\n".toList, 0, Flags.new⟩ := by decide +kernel

example : (⟨1, 1, [0, 1, 2], [0, 1, 2], ⟨1, 1, [0, 1], [0], [5]⟩, ⟨1, 1, [0, 1], [0], [6]⟩, [1]⟩ : ParMat Int).print intShow "M".toList OStream.new
    = .ok ⟨"M\nDiag:\n(0, 0)      5\n\nOffd:\n(0, 0)      6\n\nColMap:\n1\n\n".toList, 0, Flags.new⟩ := by decide +kernel

end Linalg
