import Verif.Model.Release
import Verif.Props.Coo
import Verif.Props.SparseVector

/-!
# Lemmas about builds without assertions
-/

namespace Linalg
open Cpp

variable {R α σ β : Type}

/-! ## Simulation -/

/-- Whatever the first run returns, the second returns too. -/
def Refines (r s : Res α) : Prop := ∀ a, r = .ok a → s = .ok a

theorem Refines.refl (r : Res α) : Refines r r := fun _ h => h

theorem Refines.bind {r s : Res α} {f g : α → Res β} (h : Refines r s) (hf : ∀ a, Refines (f a) (g a)) :
    Refines (r >>= f) (s >>= g) := by
  intro b hb
  obtain ⟨a, ha, hb⟩ := bind_eq_ok.mp hb
  exact bind_eq_ok.mpr ⟨a, h a ha, hf a b hb⟩

theorem Refines.assert (p : Prop) [Decidable p] : Refines (Build.debug.assert p) (Build.release.assert p) := fun _ _ => rfl

theorem Refines.forUp {a b : Int} {s : σ} {f g : Int → σ → Res σ} (h : ∀ i s, Refines (f i s) (g i s)) :
    Refines (forUp a b s f) (forUp a b s g) := by
  unfold Cpp.forUp
  generalize (b - a).toNat = n
  induction n generalizing a s with
  | zero => exact Refines.refl _
  | succ n ih =>
    show Refines (f a s >>= fun s' => forN f n (a + 1) s') (g a s >>= fun s' => forN g n (a + 1) s')
    exact (h a s).bind (fun s' => ih)

theorem Refines.foldlM {l : List β} {s : σ} {f g : σ → β → Res σ} (h : ∀ s b, Refines (f s b) (g s b)) :
    Refines (l.foldlM f s) (l.foldlM g s) := by
  induction l generalizing s with
  | nil => exact Refines.refl _
  | cons b l ih =>
    rw [List.foldlM_cons, List.foldlM_cons]
    exact (h s b).bind (fun s' => ih)

theorem Refines.forRow {A : Csr α} {i : Int} {s : σ} {f g : Int → σ → Res σ} (h : ∀ i s, Refines (f i s) (g i s)) :
    Refines (A.forRow i s f) (A.forRow i s g) :=
  (Refines.refl _).bind fun _ => (Refines.refl _).bind fun _ => Refines.forUp h

theorem Refines.vrd (v : List α) (i : Int) : Refines (Rel.vrd .debug v i) (Rel.vrd .release v i) :=
  (Refines.assert _).bind fun _ => Refines.refl _

theorem Refines.vwr (v : List α) (i : Int) (x : α) : Refines (Rel.vwr .debug v i x) (Rel.vwr .release v i x) :=
  (Refines.assert _).bind fun _ => Refines.refl _

theorem Refines.get (v : View) (m : List α) (i : Int) : Refines (Rel.get .debug v m i) (Rel.get .release v m i) :=
  (Refines.assert _).bind fun _ => Refines.refl _

theorem Refines.put (v : View) (m : List α) (i : Int) (x : α) : Refines (Rel.put .debug v m i x) (Rel.put .release v m i x) :=
  (Refines.assert _).bind fun _ => Refines.refl _

theorem Refines.ofArrays (p ix : List Int) (d : List α) (rows cols : Int) :
    Refines (Rel.ofArrays .debug p ix d rows cols) (Rel.ofArrays .release p ix d rows cols) := by
  unfold Rel.ofArrays
  refine (Refines.assert _).bind fun _ => (Refines.assert _).bind fun _ => (Refines.assert _).bind fun _ =>
    (Refines.assert _).bind fun _ => Refines.bind (s := Build.release.firstPtr p) (fun _ _ => rfl) fun _ => ?_
  split
  · exact (Refines.assert _).bind fun _ => (Refines.assert _).bind fun _ => Refines.refl _
  · exact Refines.refl _

/-! ## Folds that fail -/

theorem foldlM_fails {l : List β} {f : σ → β → Res σ} (I : σ → Prop) (good : β → Prop) (e : Err) {s : σ} (h0 : I s)
    (hgood : ∀ s, ∀ b ∈ l, I s → good b → ∃ s', f s b = .ok s' ∧ I s')
    (hbad : ∀ s, ∀ b ∈ l, I s → ¬ good b → f s b = .error e)
    (hex : ∃ b ∈ l, ¬ good b) : l.foldlM f s = .error e := by
  induction l generalizing s with
  | nil => obtain ⟨b, hb, -⟩ := hex; simp at hb
  | cons b l ih =>
    rw [List.foldlM_cons]
    by_cases hg : good b
    · obtain ⟨s', h1, h2⟩ := hgood s b (by simp) h0 hg
      rw [h1, ok_bind]
      refine ih h2 (fun s c hc => hgood s c (by simp [hc])) (fun s c hc => hbad s c (by simp [hc])) ?_
      obtain ⟨c, hc, hcg⟩ := hex
      rcases List.mem_cons.mp hc with rfl | hc
      · exact absurd hg hcg
      · exact ⟨c, hc, hcg⟩
    · rw [hbad s b (by simp) h0 hg]; rfl

/-- Adding `val e * x[src e]` to element `pos e` for every `e`, without assertions: it works exactly if all positions are
inside. -/
theorem scatter_release [NonUnitalNonAssocSemiring R] (l : List β) (src pos : β → Int) (val : β → R) (x y : List R) :
    ((∀ e ∈ l, (0 ≤ src e ∧ src e < x.length) ∧ 0 ≤ pos e ∧ pos e < y.length) →
      l.foldlM (fun (out : List R) e => do
        let a ← Rel.vrd .release x (src e)
        let old ← Rel.vrd .release out (pos e)
        Rel.vwr .release out (pos e) (old + val e * a)) (List.replicate y.length 0)
      = .ok (vecFn y.length (fun i => (l.map (fun e => if pos e = i then val e * vecAt x (src e) else 0)).sum))) ∧
    (¬ (∀ e ∈ l, (0 ≤ src e ∧ src e < x.length) ∧ 0 ≤ pos e ∧ pos e < y.length) →
      l.foldlM (fun (out : List R) e => do
        let a ← Rel.vrd .release x (src e)
        let old ← Rel.vrd .release out (pos e)
        Rel.vwr .release out (pos e) (old + val e * a)) (List.replicate y.length 0)
      = .error .outOfBounds) := by
  have hb : ∀ (n : Nat) (f : Int → R) e, (0 ≤ src e ∧ src e < x.length) → (0 ≤ pos e ∧ pos e < (n : Int)) →
      (do
        let a ← Rel.vrd .release x (src e)
        let old ← Rel.vrd .release (vecFn n f) (pos e)
        Rel.vwr .release (vecFn n f) (pos e) (old + val e * a) : Res (List R))
      = .ok (vecFn n (fun a => if a = pos e then f (pos e) + val e * vecAt x (src e) else f a)) := by
    intro n f e h1 h2
    have e1 : Rel.vrd .release x (src e) = .ok (vecAt x (src e)) := rd_vecAt x h1.1 h1.2
    have e2 : Rel.vrd .release (vecFn n f) (pos e) = .ok (f (pos e)) := rd_vecFn h2.1 h2.2
    have e3 : ∀ v, Rel.vwr .release (vecFn n f) (pos e) v = .ok (vecFn n (fun a => if a = pos e then v else f a)) :=
      fun v => wr_vecFn v h2.1 h2.2
    rw [e1, ok_bind, e2, ok_bind, e3]
  constructor
  · intro h
    rw [replicate_vecFn]
    have gen : ∀ (f : Int → R), l.foldlM (fun (out : List R) e => do
        let a ← Rel.vrd .release x (src e)
        let old ← Rel.vrd .release out (pos e)
        Rel.vwr .release out (pos e) (old + val e * a)) (vecFn y.length f)
      = (.ok (vecFn y.length (fun i => f i + (l.map (fun e => if pos e = i then val e * vecAt x (src e) else 0)).sum)) : Res (List R)) := by
      induction l with
      | nil => intro f; simp
      | cons e l ih =>
        intro f
        have he := h e (by simp)
        rw [List.foldlM_cons, hb _ _ e he.1 he.2, ok_bind, ih (fun c hc => h c (by simp [hc]))]
        congr 1
        apply vecFn_congr
        intro a _ _
        simp only [List.map_cons, List.sum_cons]
        by_cases ha : a = pos e
        · rw [if_pos ha, if_pos ha.symm, ← add_assoc, ha]
        · rw [if_neg ha, if_neg (fun e => ha e.symm), zero_add]
    rw [gen]
    simp only [zero_add]
  · intro h
    refine foldlM_fails (fun (s : List R) => ∃ f, s = vecFn y.length f)
      (fun e => (0 ≤ src e ∧ src e < x.length) ∧ 0 ≤ pos e ∧ pos e < y.length) .outOfBounds
      ⟨_, replicate_vecFn _ _⟩ ?_ ?_ (by simpa using h)
    · rintro s e _ ⟨f, rfl⟩ hg
      exact ⟨_, hb _ f e hg.1 hg.2, _, rfl⟩
    · rintro s e _ ⟨f, rfl⟩ hg
      by_cases h1 : 0 ≤ src e ∧ src e < (x.length : Int)
      · have e1 : Rel.vrd .release x (src e) = .ok (vecAt x (src e)) := rd_vecAt x h1.1 h1.2
        have h2 : ¬ (0 ≤ pos e ∧ pos e < (y.length : Int)) := fun h2 => hg ⟨h1, h2⟩
        have e2 : Rel.vrd .release (vecFn y.length f) (pos e) = .error .outOfBounds :=
          rd_oob (by rw [length_vecFn]; omega)
        rw [e1, ok_bind, e2]; rfl
      · have e1 : Rel.vrd .release x (src e) = .error .outOfBounds := rd_oob (by omega)
        rw [e1]; rfl

/-- One row of the product without assertions. -/
theorem row_release [NonUnitalNonAssocSemiring R] (n : Int) (rs : List (List (Int × R))) (k : Nat) (hk : k < rs.length)
    (h : ∀ r ∈ rs, ∀ e ∈ r, 0 ≤ e.1 ∧ e.1 < n) (x : List R) :
    ((∀ e ∈ rs[k], e.1 < (x.length : Int)) →
      (Csr.ofRows n rs).forRow (k : Int) (0 : R) (fun j val => do
        let d ← rd (Csr.ofRows n rs).data j
        let c ← rd (Csr.ofRows n rs).indices j
        let a ← Rel.vrd .release x c
        .ok (val + d * a)) = .ok (∑ j ∈ Finset.Ico 0 n, rowCoef rs[k] j * vecAt x j)) ∧
    (¬ (∀ e ∈ rs[k], e.1 < (x.length : Int)) →
      (Csr.ofRows n rs).forRow (k : Int) (0 : R) (fun j val => do
        let d ← rd (Csr.ofRows n rs).data j
        let c ← rd (Csr.ofRows n rs).indices j
        let a ← Rel.vrd .release x c
        .ok (val + d * a)) = .error .outOfBounds) := by
  rw [Csr.forRow_ofRows n rs k hk _ _ (fun e val => do
    let a ← Rel.vrd .release x e.1
    .ok (val + e.2 * a)) (fun m hm s => by
      rw [rd_data_ofRows n rs k m hk hm, rd_indices_ofRows n rs k m hk hm]; rfl)]
  have hr := h _ (List.getElem_mem hk)
  constructor
  · intro hx
    have := (foldlM_eq_foldl (l := rs[k]) (f := fun (val : R) e => (do
        let a ← Rel.vrd .release x e.1
        .ok (val + e.2 * a) : Res R))
      (g := fun val e => val + e.2 * vecAt x e.1) (fun _ => True) (s := (0 : R)) trivial
      (fun e he s _ => ⟨by
        have e1 : Rel.vrd .release x e.1 = .ok (vecAt x e.1) := rd_vecAt x (hr e he).1 (hx e he)
        rw [e1, ok_bind], trivial⟩)).1
    rw [this, foldl_add_eq, zero_add, sum_row_eq hr]
  · intro hx
    refine foldlM_fails (fun _ => True) (fun e => e.1 < (x.length : Int)) .outOfBounds trivial ?_ ?_ (by simpa using hx)
    · intro s e he _ hg
      have e1 : Rel.vrd .release x e.1 = .ok (vecAt x e.1) := rd_vecAt x (hr e he).1 hg
      exact ⟨_, by rw [e1, ok_bind], trivial⟩
    · intro s e he _ hg
      have e1 : Rel.vrd .release x e.1 = .error .outOfBounds := rd_oob (by omega)
      rw [e1]; rfl

theorem mem_indices_ofRows {n : Int} {rs : List (List (Int × α))} {c : Int} :
    c ∈ (Csr.ofRows n rs).indices ↔ ∃ r ∈ rs, ∃ e ∈ r, e.1 = c := by
  simp only [Csr.ofRows, List.mem_map, List.mem_flatten]
  constructor
  · rintro ⟨e, ⟨r, hr, he⟩, rfl⟩; exact ⟨r, hr, e, he, rfl⟩
  · rintro ⟨r, hr, e, he, rfl⟩; exact ⟨e, ⟨r, hr, he⟩, rfl⟩

end Linalg
