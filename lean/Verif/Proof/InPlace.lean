import Verif.Proof.Triples
import Mathlib.Algebra.Group.Hom.Defs

/-! # Loops that update the stored values in place: helper lemmas -/

namespace Linalg
open Cpp

variable {α β γ σ τ R : Type}

theorem triplesL_map_snd (rs : List (List (Int × α))) :
    (triplesL rs).map (fun t => t.2) = rs.flatten := by
  induction rs using List.reverseRecOn with
  | nil => rfl
  | append_singleton rs r ih =>
    rw [triplesL_concat, List.map_append, ih]; simp

theorem triplesL_length (rs : List (List (Int × α))) :
    (triplesL rs).length = rs.flatten.length := by
  rw [← triplesL_map_snd rs, List.length_map]

/-- The double loop over rows and positions is a fold over the stored triples with their positions. -/
theorem rowLoop_pos (n : Int) (rs : List (List (Int × α))) (s : σ) (f : Int → Int → σ → Res σ) :
    forUp 0 (Csr.ofRows n rs).rows s (fun i s => (Csr.ofRows n rs).forRow i s (fun j s => f i j s))
      = (triplesL rs).zipIdx.foldlM (fun s p => f p.1.1 (p.2 : Int) s) s := by
  have h1 : (Csr.ofRows n rs).rows = (rs.length : Int) := rfl
  rw [h1]
  have h2 := foldlM_range_rows rs s (fun i r s =>
    (r.zipIdx ((rs.take i.toNat).flatten.length)).foldlM
      (fun s (p : (Int × α) × Nat) => f i (p.2 : Int) s) s)
  have h3 : forUp 0 (rs.length : Int) s
      (fun i s => (Csr.ofRows n rs).forRow i s (fun j s => f i j s))
      = rs.zipIdx.foldlM (fun s p => (p.1.zipIdx ((rs.take p.2).flatten.length)).foldlM
        (fun s (q : (Int × α) × Nat) => f (p.2 : Int) (q.2 : Int) s) s) s := by
    simp only [Int.toNat_natCast] at h2
    rw [← h2]
    apply forUp_congr
    intro i s h0 hi
    obtain ⟨k, rfl⟩ : ∃ k : Nat, i = (k : Int) := ⟨i.toNat, by omega⟩
    have hk : k < rs.length := by exact_mod_cast hi
    simp only [Int.toNat_natCast, List.getElem?_eq_getElem hk]
    unfold Csr.forRow
    have e1 : rd (Csr.ofRows n rs).indptr (k : Int) = _ := rd_ptrs rs k hk.le
    have e2 : rd (Csr.ofRows n rs).indptr ((k : Int) + 1) = _ := rd_ptrs_succ rs k hk
    rw [e1, e2]
    simp only [ok_bind]
    have := forUp_list (rs[k].zipIdx ((rs.take k).flatten.length)) ((rs.take k).flatten.length) s
      (fun j s => f (k : Int) j s) (fun p s => f (k : Int) (p.2 : Int) s) (by
        intro m hm s; simp)
    rw [List.length_zipIdx] at this
    exact this
  rw [h3]
  clear h1 h2 h3
  induction rs using List.reverseRecOn generalizing s with
  | nil => rfl
  | append_singleton rs r ih =>
    rw [triplesL_concat, List.zipIdx_append, List.zipIdx_append, foldlM_append', foldlM_append', ← ih]
    have : rs.zipIdx.foldlM (fun s p => (p.1.zipIdx (((rs ++ [r]).take p.2).flatten.length)).foldlM
        (fun s (q : (Int × α) × Nat) => f (p.2 : Int) (q.2 : Int) s) s) s
        = rs.zipIdx.foldlM (fun s p => (p.1.zipIdx ((rs.take p.2).flatten.length)).foldlM
        (fun s (q : (Int × α) × Nat) => f (p.2 : Int) (q.2 : Int) s) s) s := by
      apply foldlM_congr
      intro p hp s
      have hlt := List.snd_lt_of_mem_zipIdx hp
      rw [List.take_append_of_le_length (by omega)]
    rw [this]
    congr 1
    funext s'
    simp only [Nat.zero_add, List.zipIdx_cons, List.zipIdx_nil, List.foldlM_cons, List.foldlM_nil,
      List.take_left, triplesL_length]
    have h4 : (r.map (fun e => ((rs.length : Int), e.1, e.2))).zipIdx (rs.flatten.length)
        = (r.zipIdx (rs.flatten.length)).map (fun q => (((rs.length : Int), q.1.1, q.1.2), q.2)) := by
      rw [List.zipIdx_map]; rfl
    rw [h4, List.foldlM_map, bind_pure]

/-- Writing position `p` in step `p` (the value there still being the original one) maps the list. -/
theorem foldlM_zipIdx_set (L : List β) (v g : β → γ) (f : List γ → β × Nat → Res (List γ))
    (h : ∀ (p : Nat) (hp : p < L.length) (d : List γ), d.length = L.length →
      d[p]? = some (v L[p]) → f d (L[p], p) = .ok (d.set p (g L[p]))) :
    L.zipIdx.foldlM f (L.map v) = .ok (L.map g) := by
  obtain ⟨d, h1, h2, h3, -⟩ := foldlM_inv (l := L.zipIdx) (f := f)
    (fun pre (d : List γ) => d.length = L.length ∧
      (∀ (q : Nat) (hq : q < L.length), q < pre.length → d[q]? = some (g L[q])) ∧
      (∀ (q : Nat) (hq : q < L.length), pre.length ≤ q → d[q]? = some (v L[q])))
    (s := L.map v) ⟨by simp, by simp, by intro q hq _; simp [hq]⟩ (by
      rintro pre ⟨b, p⟩ post d hl ⟨hd, hlo, hhi⟩
      have hp : pre.length < L.length := by
        have := congrArg List.length hl; simp at this; omega
      have hbp : (b, p) = (L[pre.length], pre.length) := by
        have : L.zipIdx[pre.length]? = some (b, p) := by rw [hl]; simp
        rw [List.getElem?_eq_getElem (by simpa using hp)] at this
        simp at this
        rw [← this.1, ← this.2]
      rw [hbp]
      refine ⟨_, h _ hp d hd (hhi _ hp le_rfl), by simp [hd], ?_, ?_⟩
      · intro q hq hlt
        rw [List.getElem?_set]
        by_cases e : pre.length = q
        · subst e; simp [hd, hp]
        · rw [if_neg e]; exact hlo q hq (by simp at hlt; omega)
      · intro q hq hge
        simp at hge
        rw [List.getElem?_set, if_neg (by omega)]
        exact hhi q hq (by omega))
  rw [h1]
  congr 1
  apply List.ext_getElem?
  intro q
  by_cases hq : q < L.length
  · rw [h3 q hq (by simpa using hq), List.getElem?_map, List.getElem?_eq_getElem hq]; rfl
  · rw [List.getElem?_eq_none (by omega), List.getElem?_eq_none (by simp; omega)]

/-- The same with a second loop variable. -/
theorem foldlM_zipIdx_set2 (L : List β) (v g : β → γ) (f : List γ × τ → β × Nat → Res (List γ × τ))
    (h2 : τ → β → Res τ) (s : τ)
    (h : ∀ (p : Nat) (hp : p < L.length) (d : List γ) (s : τ), d.length = L.length →
      d[p]? = some (v L[p]) →
      f (d, s) (L[p], p) = (h2 s L[p] >>= fun s' => .ok (d.set p (g L[p]), s'))) :
    L.zipIdx.foldlM f (L.map v, s) = (L.foldlM h2 s >>= fun s' => .ok (L.map g, s')) := by
  suffices H : ∀ (post pre : List β) (s : τ), L = pre ++ post →
      (post.zipIdx pre.length).foldlM f (pre.map g ++ post.map v, s)
        = (post.foldlM h2 s >>= fun s' => .ok (L.map g, s')) by
    have := H L [] s rfl
    simpa using this
  intro post
  induction post with
  | nil => intro pre s hl; simp only [List.append_nil] at hl; subst hl; simp
  | cons b post ih =>
    intro pre s hl
    have hp : pre.length < L.length := by rw [hl]; simp
    have hb : L[pre.length] = b := by simp [hl]
    rw [List.zipIdx_cons, List.foldlM_cons, List.foldlM_cons]
    have := h pre.length hp (pre.map g ++ (b :: post).map v) s (by rw [hl]; simp) (by
      rw [hb]; simp)
    rw [hb] at this
    rw [this, bind_assoc, bind_assoc]
    congr 1
    funext s'
    have := ih (pre ++ [b]) s' (by rw [hl]; simp)
    simp only [List.length_append, List.length_singleton, List.map_append, List.map_cons, List.map_nil,
      List.append_assoc] at this
    rw [ok_bind, ← this]
    congr 2
    rw [List.set_append_right _ _ (by simp)]
    simp

/-- Rows with every value replaced by a function of row, column and value. -/
def mapRows (G : Int → Int × α → β) (rs : List (List (Int × α))) : List (List (Int × β)) :=
  rs.mapIdx (fun k r => r.map (fun e => (e.1, G (k : Int) e)))

@[simp] theorem length_mapRows (G : Int → Int × α → β) (rs : List (List (Int × α))) :
    (mapRows G rs).length = rs.length := by simp [mapRows]

theorem getElem_mapRows (G : Int → Int × α → β) (rs : List (List (Int × α))) (k : Nat)
    (h : k < (mapRows G rs).length) :
    (mapRows G rs)[k] = (rs[k]'(by simpa using h)).map (fun e => (e.1, G (k : Int) e)) := by
  simp [mapRows]

theorem mapRows_concat (G : Int → Int × α → β) (rs : List (List (Int × α))) (r : List (Int × α)) :
    mapRows G (rs ++ [r]) = mapRows G rs ++ [r.map (fun e => (e.1, G (rs.length : Int) e))] := by
  simp [mapRows, List.mapIdx_append]

theorem mapRows_flatten (G : Int → Int × α → β) (rs : List (List (Int × α))) :
    (mapRows G rs).flatten = (triplesL rs).map (fun t => (t.2.1, G t.1 t.2)) := by
  induction rs using List.reverseRecOn with
  | nil => rfl
  | append_singleton rs r ih =>
    rw [mapRows_concat, triplesL_concat, List.flatten_append, ih, List.map_append, List.map_map]
    simp [Function.comp_def]

theorem flatten_take_length_congr {rs : List (List α)} {rs' : List (List β)}
    (h : rs.map List.length = rs'.map List.length) (k : Nat) :
    (rs.take k).flatten.length = (rs'.take k).flatten.length := by
  rw [List.length_flatten, List.length_flatten, List.map_take, List.map_take, h]

theorem ptrs_congr {rs : List (List α)} {rs' : List (List β)}
    (h : rs.map List.length = rs'.map List.length) : ptrs rs = ptrs rs' := by
  have hl : rs.length = rs'.length := by simpa using congrArg List.length h
  unfold ptrs
  rw [hl]
  apply List.map_congr_left
  intro k _
  rw [flatten_take_length_congr h]

theorem ptrs_mapRows (G : Int → Int × α → β) (rs : List (List (Int × α))) :
    ptrs (mapRows G rs) = ptrs rs := by
  apply ptrs_congr
  apply List.ext_getElem
  · simp
  · intro k h1 h2; simp [mapRows]

theorem ofRows_mapRows (n : Int) (G : Int → Int × α → β) (rs : List (List (Int × α))) :
    Csr.ofRows n (mapRows G rs)
      = ⟨rs.length, n, ptrs rs, rs.flatten.map Prod.fst, (triplesL rs).map (fun t => G t.1 t.2)⟩ := by
  unfold Csr.ofRows
  rw [ptrs_mapRows, mapRows_flatten, length_mapRows, ← triplesL_map_snd rs]
  simp [List.map_map, Function.comp_def]

theorem mapRows_ok {G : Int → Int × α → β} {n : Int} {rs : List (List (Int × α))}
    (h : ∀ r ∈ rs, ∀ e ∈ r, 0 ≤ e.1 ∧ e.1 < n) :
    ∀ r ∈ mapRows G rs, ∀ e ∈ r, 0 ≤ e.1 ∧ e.1 < n := by
  intro r hr e he
  obtain ⟨k, hk, rfl⟩ := List.getElem_of_mem hr
  rw [getElem_mapRows] at he
  obtain ⟨x, hx, rfl⟩ := List.mem_map.mp he
  exact h _ (List.getElem_mem _) x hx

/-- An in-place update of the values: the loop writes `G row entry` at each position. -/
theorem updLoop_ofRows (n : Int) (rs : List (List (Int × α))) (f : Int → Int → List α → Res (List α))
    (G : Int → Int × α → α)
    (hf : ∀ (t : Int × Int × α) (p : Nat), (triplesL rs)[p]? = some t →
      rd (Csr.ofRows n rs).indices (p : Int) = .ok t.2.1 →
      ∀ d : List α, d.length = (triplesL rs).length → rd d (p : Int) = .ok t.2.2 →
      f t.1 (p : Int) d = .ok (d.set p (G t.1 t.2))) :
    forUp 0 (Csr.ofRows n rs).rows (Csr.ofRows n rs).data
        (fun i s => (Csr.ofRows n rs).forRow i s (fun j s => f i j s))
      = .ok (Csr.ofRows n (mapRows G rs)).data := by
  rw [rowLoop_pos, ofRows_mapRows]
  have e : (Csr.ofRows n rs).data = (triplesL rs).map (fun t => t.2.2) := by
    simp only [Csr.ofRows, ← triplesL_map_snd rs, List.map_map, Function.comp_def]
  rw [e]
  apply foldlM_zipIdx_set
  intro p hp d hd hv
  refine hf _ p (List.getElem?_eq_getElem hp) ?_ d hd ?_
  · rw [rd_eq_ok]
    refine ⟨by omega, ?_⟩
    simp only [Csr.ofRows, ← triplesL_map_snd rs, Int.toNat_natCast]
    simp [hp]
  · rw [rd_eq_ok]; exact ⟨by omega, by simpa using hv⟩

/-- The matrix after an in-place update of the values. -/
theorem withData_mapRows (n : Int) (rs : List (List (Int × α))) (G : Int → Int × α → α) :
    { Csr.ofRows n rs with data := (Csr.ofRows n (mapRows G rs)).data } = Csr.ofRows n (mapRows G rs) := by
  rw [ofRows_mapRows]; rfl

theorem row_mapRows (n : Int) (rs : List (List (Int × α))) (G : Int → Int × α → β) (i : Int) :
    (Csr.ofRows n (mapRows G rs)).row i = ((Csr.ofRows n rs).row i).map (fun e => (e.1, G i e)) := by
  by_cases h0 : 0 ≤ i
  · rw [row_ofRows_getD _ _ h0, row_ofRows_getD _ _ h0, List.getD_eq_getElem?_getD,
      List.getD_eq_getElem?_getD]
    by_cases h : i.toNat < rs.length
    · rw [List.getElem?_eq_getElem (by simpa using h), List.getElem?_eq_getElem h, getElem_mapRows]
      have : ((i.toNat : Nat) : Int) = i := by omega
      simp only [Option.getD_some, this]
    · rw [List.getElem?_eq_none (by simpa using h), List.getElem?_eq_none (by omega)]; rfl
  · rw [Csr.row_neg _ (by omega), Csr.row_neg _ (by omega)]; rfl

theorem updatedBy_mapRows (n : Int) (rs : List (List (Int × α))) (G : Int → Int × α → β) :
    (Csr.ofRows n rs).UpdatedBy (Csr.ofRows n (mapRows G rs)) (fun i j v => G i (j, v)) where
  rows_eq := by simp [Csr.ofRows]
  cols_eq := rfl
  indptr_eq := ptrs_mapRows G rs
  indices_eq := by rw [ofRows_mapRows]; rfl
  row_eq := row_mapRows n rs G

/-- An in-place update loop followed by the construction of the updated matrix. -/
theorem upd_ofRows {n : Int} (hn : 0 ≤ n) {rs : List (List (Int × α))}
    (h : ∀ r ∈ rs, ∀ e ∈ r, 0 ≤ e.1 ∧ e.1 < n)
    (f : Int → Int → List α → Res (List α)) (G : Int → Int × α → α)
    (hf : ∀ (t : Int × Int × α) (p : Nat), t ∈ triplesL rs → p < (triplesL rs).length →
      rd (Csr.ofRows n rs).indices (p : Int) = .ok t.2.1 →
      ∀ d : List α, d.length = (triplesL rs).length → rd d (p : Int) = .ok t.2.2 →
      f t.1 (p : Int) d = .ok (d.set p (G t.1 t.2))) :
    ∃ B, (do
      let data ← forUp 0 (Csr.ofRows n rs).rows (Csr.ofRows n rs).data
        (fun i s => (Csr.ofRows n rs).forRow i s (fun j s => f i j s))
      .ok { Csr.ofRows n rs with data := data } : Res (Csr α)) = .ok B ∧ B.WF ∧
      (Csr.ofRows n rs).UpdatedBy B (fun i j v => G i (j, v)) := by
  refine ⟨Csr.ofRows n (mapRows G rs), ?_, Csr.wf_ofRows hn (mapRows_ok h), updatedBy_mapRows n rs G⟩
  rw [updLoop_ofRows n rs f G (by
    intro t p ht hi d hd hv
    have hp := (List.getElem?_eq_some_iff.mp ht).1
    exact hf t p (List.mem_of_getElem? ht) hp hi d hd hv)]
  simp only [ok_bind]
  rw [withData_mapRows]

theorem forUp_id (a b : Int) (s : σ) : forUp a b s (fun _ s => .ok s) = .ok s := by
  by_cases h : a ≤ b
  · obtain ⟨s', h1, h2⟩ := forUp_inv h (f := fun _ s => (.ok s : Res σ)) (fun _ s' => s' = s) (s := s) rfl
      (by rintro i s - - rfl; exact ⟨_, rfl, rfl⟩)
    rw [h1, h2]
  · exact forUp_nil (by omega) s _

theorem forUp_single {n : Int} {k : Int} (h0 : 0 ≤ k) (h1 : k < n) (s : σ) (g : σ → Res σ) :
    forUp 0 n s (fun i s => if i = k then g s else .ok s) = g s := by
  have hsplit : ∀ a b c : Int, a ≤ b → b ≤ c → ∀ (f : Int → σ → Res σ) s,
      forUp a c s f = (forUp a b s f >>= fun s' => forUp b c s' f) := by
    intro a b c hab hbc f
    obtain ⟨m, hm⟩ : ∃ m : Nat, b = a + m := ⟨(b - a).toNat, by omega⟩
    induction m generalizing a with
    | zero => intro s; have : b = a := by omega
              subst this; rw [forUp_nil le_rfl]; rfl
    | succ m ih =>
      intro s
      rw [forUp_cons (by omega), forUp_cons (b := b) (by omega), bind_assoc]
      congr 1; funext s'
      exact ih (a + 1) (by omega) (by omega) s'
  rw [hsplit 0 k n h0 h1.le]
  have e1 : forUp 0 k s (fun i s => if i = k then g s else .ok s) = .ok s := by
    rw [forUp_congr (g := fun _ s => .ok s) s (by intro i s h2 h3; rw [if_neg (by omega)])]
    exact forUp_id _ _ _
  rw [e1, ok_bind, forUp_cons h1, if_pos rfl]
  conv_rhs => rw [← bind_pure (g s)]
  congr 1; funext s'
  rw [forUp_congr (g := fun _ s => .ok s) s' (by intro i s h2 h3; rw [if_neg (by omega)])]
  exact forUp_id _ _ _

/-- Well-formed matrices with the same shape and rows are equal, array for array. -/
theorem Csr.ext_rows {A B : Csr α} (hA : A.WF) (hB : B.WF) (hr : A.rows = B.rows) (hc : A.cols = B.cols)
    (h : ∀ i, 0 ≤ i → i < B.rows → A.row i = B.row i) : A = B := by
  rw [hA.eq_ofRows, hB.eq_ofRows, hc]
  congr 1
  unfold Csr.rowsL
  rw [hr]
  apply List.map_congr_left
  intro k hk
  have := List.mem_range.mp hk
  exact h _ (by omega) (by omega)

theorem triplesL_ok {n : Int} {rs : List (List (Int × α))}
    (h : ∀ r ∈ rs, ∀ e ∈ r, 0 ≤ e.1 ∧ e.1 < n) :
    ∀ t ∈ triplesL rs, (0 ≤ t.1 ∧ t.1 < (rs.length : Int)) ∧ 0 ≤ t.2.1 ∧ t.2.1 < n := by
  intro t ht
  obtain ⟨k, hk, h1, h2⟩ := mem_triplesL.mp ht
  exact ⟨by omega, h _ (List.getElem_mem hk) _ h2⟩

theorem set_getElem_self (d : List α) (p : Nat) (v : α) (h : rd d (p : Int) = .ok v) : d.set p v = d := by
  rw [rd_eq_ok] at h
  have h2 := h.2
  simp only [Int.toNat_natCast] at h2
  apply List.ext_getElem?
  intro q
  rw [List.getElem?_set]
  by_cases e : p = q
  · subst e
    obtain ⟨hp, -⟩ := List.getElem?_eq_some_iff.mp h2
    rw [if_pos rfl, if_pos hp, h2]
  · rw [if_neg e]

/-! ## Coefficients after an update -/

theorem rowCoef_map [AddMonoid R] [AddMonoid β] (r : List (Int × R)) (G : Int → R →+ β) (j : Int) :
    rowCoef (r.map (fun e => (e.1, G e.1 e.2))) j = G j (rowCoef r j) := by
  induction r with
  | nil => simp
  | cons e r ih =>
    rw [List.map_cons, rowCoef_cons, rowCoef_cons, ih, map_add]
    congr 1
    by_cases h : e.1 = j
    · simp [h]
    · simp [h]

theorem Csr.UpdatedBy.coef [AddMonoid R] [AddMonoid β] {A : Csr R} {B : Csr β} {G : Int → Int → R → β}
    (h : A.UpdatedBy B G) (i j : Int) (H : R →+ β)
    (hG : ∀ v, (j, v) ∈ A.row i → G i j v = H v) : B.coef i j = H (A.coef i j) := by
  rw [Csr.coef_eq, Csr.coef_eq, h.row_eq]
  revert hG
  generalize A.row i = r
  induction r with
  | nil => intro _; simp
  | cons e r ih =>
    intro hG
    rw [List.map_cons, rowCoef_cons, rowCoef_cons, ih (fun v hv => hG v (by simp [hv])), map_add]
    congr 1
    by_cases he : e.1 = j
    · subst he; simp only [if_true]; exact hG e.2 (by simp)
    · simp [he]

end Linalg
