import Verif.Model.Alias
import Verif.Spec.Alias
import Verif.Proof.View
import Verif.Proof.Order
import Verif.Proof.Block

/-! # Running a function on memory and on lists side by side -/

namespace Linalg
open Cpp

variable {σ τ γ δ β : Type}

/-- The same error, or results that are related. -/
def Sim (R : σ → τ → Prop) (a : Res σ) (b : Res τ) : Prop :=
  match a with
  | .ok s => ∃ t, b = .ok t ∧ R s t
  | .error e => b = .error e

theorem Sim.ok {R : σ → τ → Prop} {s : σ} {t : τ} (h : R s t) : Sim R (.ok s) (.ok t) := ⟨t, rfl, h⟩

theorem Sim.bind {R : σ → τ → Prop} {Q : γ → δ → Prop} {a : Res σ} {b : Res τ} {f : σ → Res γ} {g : τ → Res δ} (h : Sim R a b)
    (hf : ∀ s t, R s t → Sim Q (f s) (g t)) : Sim Q (a >>= f) (b >>= g) := by
  cases a with
  | error e =>
    obtain rfl : b = .error e := h
    exact rfl
  | ok s =>
    obtain ⟨t, rfl, hR⟩ := h
    exact hf s t hR

theorem Sim.same {Q : γ → δ → Prop} {a : Res σ} {f : σ → Res γ} {g : σ → Res δ} (hf : ∀ s, a = .ok s → Sim Q (f s) (g s)) :
    Sim Q (a >>= f) (a >>= g) := by
  cases a with
  | error e => exact rfl
  | ok s => exact hf s rfl

theorem forN_mirror {R : σ → τ → Prop} {f : Int → σ → Res σ} {g : Int → τ → Res τ} (n : Nat) (i : Int) (s : σ) (t : τ) (h : R s t)
    (hf : ∀ j s t, i ≤ j → j < i + n → R s t → Sim R (f j s) (g j t)) : Sim R (forN f n i s) (forN g n i t) := by
  induction n generalizing i s t with
  | zero => exact Sim.ok h
  | succ n ih =>
    unfold forN
    exact (hf i s t (le_refl _) (by omega) h).bind (fun s' t' h' => ih (i + 1) s' t' h' (fun j s t h1 h2 => hf j s t (by omega) (by omega)))

theorem forUp_mirror {R : σ → τ → Prop} {f : Int → σ → Res σ} {g : Int → τ → Res τ} {lo hi : Int} {s : σ} {t : τ} (h : R s t)
    (hf : ∀ j s t, lo ≤ j → j < hi → R s t → Sim R (f j s) (g j t)) : Sim R (forUp lo hi s f) (forUp lo hi t g) := by
  unfold forUp
  exact forN_mirror _ _ _ _ h (fun j s t h1 h2 => hf j s t h1 (by omega))

theorem foldlM_mirror {R : σ → τ → Prop} {f : σ → β → Res σ} {g : τ → β → Res τ} (l : List β) {s : σ} {t : τ} (h : R s t)
    (hf : ∀ b s t, b ∈ l → R s t → Sim R (f s b) (g t b)) : Sim R (l.foldlM f s) (l.foldlM g t) := by
  induction l generalizing s t with
  | nil => exact Sim.ok h
  | cons b l ih =>
    rw [List.foldlM_cons, List.foldlM_cons]
    exact (hf b s t (by simp) h).bind (fun s' t' h' => ih h' (fun b s t hb => hf b s t (by simp [hb])))

variable {α : Type}

theorem mem_of_rd {v : List β} {i : Int} {x : β} (h : rd v i = .ok x) : x ∈ v := by
  unfold rd at h
  split at h
  · split at h
    · next e => cases h; exact List.mem_of_getElem? e
    · cases h
  · cases h

theorem Csr.forRow_sim' {R : σ → τ → Prop} {A : Csr α} {i : Int} {f : Int → σ → Res σ} {g : Int → τ → Res τ} {s : σ} {t : τ} (h : R s t)
    (hf : ∀ j s t, R s t → Sim R (f j s) (g j t)) : Sim R (A.forRow i s f) (A.forRow i t g) := by
  unfold Csr.forRow
  exact Sim.same (fun lo _ => Sim.same (fun hi _ => forUp_mirror h (fun j s t _ _ => hf j s t)))

theorem Offsets.mem_nonneg {off : List Int} {n : Int} (h : Offsets off n) {x : Int} (hx : x ∈ off) : 0 ≤ x := by
  obtain ⟨k, hk, rfl⟩ := List.mem_iff_getElem.1 hx
  have h1 := h.nonneg (a := k) (by omega) (by omega)
  rw [vecAt_int off (by omega) (by omega)] at h1
  simpa using h1

theorem BlockMat.forRows_sim {R : σ → τ → Prop} {B : BlockMat α} (hB : B.WF) {f : Int → Int → Int → σ → Res σ} {g : Int → Int → Int → τ → Res τ} {s : σ} {t : τ} (h : R s t)
    (hf : ∀ i row l s t, 0 ≤ row → R s t → Sim R (f i row l s) (g i row l t)) : Sim R (B.forRows s f) (B.forRows t g) := by
  unfold BlockMat.forRows
  refine forUp_mirror h (fun i s t _ _ hR => Sim.same (fun lo hlo => Sim.same (fun hi hhi => ?_)))
  have h0 := hB.rowOff_ok.mem_nonneg (mem_of_rd hlo)
  refine Sim.bind (R := fun (a : Int × σ) (b : Int × τ) => a.1 = b.1 ∧ R a.2 b.2) (forUp_mirror ⟨rfl, hR⟩ ?_) (fun a b hab => Sim.ok hab.2)
  rintro row ⟨l, s⟩ ⟨l', t⟩ h1 h2 ⟨rfl, hR⟩
  exact (hf i row l s t (by omega) hR).bind (fun s t hR => Sim.ok ⟨rfl, hR⟩)

theorem BlockMat.forEntries_sim {R : σ → τ → Prop} {B : BlockMat α} (hB : B.WF) {i l : Int} {f : Int → α → σ → Res σ} {g : Int → α → τ → Res τ} {s : σ} {t : τ} (h : R s t)
    (hf : ∀ c d s t, 0 ≤ c → R s t → Sim R (f c d s) (g c d t)) : Sim R (B.forEntries i l s f) (B.forEntries i l t g) := by
  unfold BlockMat.forEntries
  refine forUp_mirror h (fun j s t _ _ hR => Sim.same (fun mat hmat => ?_))
  split
  · exact Sim.ok hR
  · refine Sim.same (fun off hoff => Csr.forRow_sim' hR (fun jj s t hR => Sim.same (fun c hc => Sim.same (fun d _ => hf _ d s t ?_ hR))))
    have h0 := hB.colOff_ok.mem_nonneg (mem_of_rd hoff)
    have h1 : mat.WF := by
      unfold BlockMat.at' at hmat
      obtain ⟨r, hr, hm⟩ := bind_eq_ok.1 hmat
      exact hB.block_wf r (mem_of_rd hr) mat (mem_of_rd hm)
    have := (h1.cols_ok c (mem_of_rd hc)).1
    omega

namespace View
variable [Zero α]

theorem vecAt_out (m : List α) {p : Int} (h : ¬ (0 ≤ p ∧ p < m.length)) : vecAt m p = 0 := by
  unfold vecAt
  split
  · rw [List.getD_eq_getElem?_getD, List.getElem?_eq_none (by omega)]
    rfl
  · rfl

theorem length_elems {v : View} (h : 0 ≤ v.size) (m : List α) : ((v.elems m).length : Int) = v.size := by
  unfold elems
  simp [iota, h]

theorem is_elems {v : View} (h : 0 ≤ v.size) (m : List α) : VecIs (v.elems m) v.size (fun i => vecAt m (v.off + i)) := by
  obtain ⟨n, hn⟩ : ∃ n : Nat, v.size = n := ⟨v.size.toNat, by omega⟩
  unfold elems
  rw [hn, Int.toNat_natCast, ← vecFn_iota]
  exact is_vecFn n _

/-- Reading through a view that shares nothing with the one that is written. -/
theorem Wrote.get_apart {v x : View} {m m' z : List α} (h : v.Wrote m m' z) (hx : x.InMem m) (ha : x.Apart v) {c : Int} (hc : 0 ≤ c) :
    x.get m' c = vrd (x.elems m) c := by
  unfold View.get vrd
  have h0 := hx.off_nonneg
  have h1 := hx.fits
  rw [length_elems hx.size_nonneg]
  by_cases hlt : c < x.size
  · rw [cassert_true hlt, ok_bind, ok_bind, (is_elems hx.size_nonneg m).get_eq c hc hlt, rd_vecAt m' (by omega) (by rw [h.length_eq]; omega),
      h.rest_eq _ (fun hv => ha (x.off + c) ⟨⟨by omega, by omega⟩, hv⟩)]
  · rw [cassert_false hlt]
    rfl

/-- Reading through the view that is written. -/
theorem Wrote.get_own {v : View} {m m' z : List α} (h : v.Wrote m m' z) (hv : v.InMem m) {c : Int} (hc : 0 ≤ c) :
    v.get m' c = vrd z c := by
  unfold View.get vrd
  have h0 := hv.off_nonneg
  have h1 := hv.fits
  rw [← h.elems_eq, length_elems hv.size_nonneg]
  by_cases hlt : c < v.size
  · rw [cassert_true hlt, ok_bind, ok_bind, (is_elems hv.size_nonneg m').get_eq c hc hlt, rd_vecAt m' (by omega) (by rw [h.length_eq]; omega)]
  · rw [cassert_false hlt]
    rfl

theorem Wrote.put {v : View} {m m' z : List α} (h : v.Wrote m m' z) (hv : v.InMem m) {c : Int} (hc : 0 ≤ c) (a : α) :
    Sim (fun z m' => v.Wrote m m' z) (vwr z c a) (v.put m' c a) := by
  unfold View.put vwr
  have h0 := hv.off_nonneg
  have h1 := hv.fits
  have hs := hv.size_nonneg
  have hl := h.length_eq
  have hz : (z.length : Int) = v.size := by rw [← h.elems_eq, length_elems hs]
  by_cases hlt : c < v.size
  · rw [cassert_true (by omega), cassert_true hlt, ok_bind, ok_bind]
    obtain ⟨n, hn⟩ : ∃ n : Nat, v.size = n := ⟨v.size.toNat, by omega⟩
    have ez := (is_elems hs m')
    rw [h.elems_eq, hn] at ez
    rw [ez.eq_vecFn]
    conv => rhs; rw [eq_vecFn_vecAt m']
    rw [wr_vecFn a hc (by omega), wr_vecFn a (by omega) (by omega)]
    refine Sim.ok ⟨by simp [hl], ?_, ?_⟩
    · have e1 := is_elems hs (vecFn m'.length (fun p => if p = v.off + c then a else vecAt m' p))
      rw [hn] at e1
      rw [e1.eq_vecFn]
      apply vecFn_congr
      intro i i0 i1
      rw [(is_vecFn m'.length _).vecAt_eq (by omega) (by omega)]
      by_cases hi : i = c
      · rw [if_pos (by omega), if_pos hi]
      · rw [if_neg (by omega), if_neg hi]
    · intro p hp
      by_cases hpr : 0 ≤ p ∧ p < m'.length
      · rw [(is_vecFn m'.length _).vecAt_eq hpr.1 hpr.2, if_neg, h.rest_eq p hp]
        rintro rfl
        exact hp ⟨by omega, by omega⟩
      · rw [← h.rest_eq p hp]
        rw [vecAt_out _ (by simpa using hpr), vecAt_out _ hpr]
  · rw [cassert_false hlt, cassert_false (p := c < (z.length : Int)) (by omega)]
    exact rfl

/-- Memory in which the elements of the view are `g`. -/
theorem wrote_vecFn {v : View} {m : List α} (hv : v.InMem m) (g : Int → α) (z : List α) (hz : (z.length : Int) = v.size)
    (hg : ∀ i, 0 ≤ i → i < v.size → vecAt z i = g i) :
    v.Wrote m (vecFn m.length (fun p => if v.off ≤ p ∧ p < v.off + v.size then g (p - v.off) else vecAt m p)) z := by
  have h0 := hv.off_nonneg
  have h1 := hv.fits
  have hs := hv.size_nonneg
  refine ⟨by simp, ?_, ?_⟩
  · refine (is_elems hs _).unique (VecIs.congr (f := vecAt z) (by rw [← hz]; exact vecIs_vecAt z) ?_)
    intro i i0 i1
    rw [(is_vecFn m.length _).vecAt_eq (by omega) (by omega), if_pos (by omega), hg i i0 i1]
    congr 1
    omega
  · intro p hp
    by_cases hpr : 0 ≤ p ∧ p < m.length
    · rw [(is_vecFn m.length _).vecAt_eq hpr.1 hpr.2]
      exact if_neg hp
    · rw [vecAt_out _ (by simpa using hpr), vecAt_out _ hpr]

theorem wrote_fill {v : View} {m : List α} (hv : v.InMem m) :
    ∃ m', v.fill 0 m = .ok m' ∧ v.Wrote m m' (List.replicate (v.elems m).length 0) := by
  have h0 := hv.off_nonneg
  have h1 := hv.fits
  have hs := hv.size_nonneg
  refine ⟨_, ?_, wrote_vecFn hv (fun _ => 0) (List.replicate (v.elems m).length 0) (by rw [List.length_replicate, length_elems hs]) ?_⟩
  · unfold View.fill
    conv => lhs; rw [eq_vecFn_vecAt m]
    exact mapLoop v.off hs (vecAt m) (fun _ => 0) _ (fun i h i0 i1 _ => wr_vecFn 0 (by omega) (by omega))
  · intro i i0 i1
    rw [replicate_vecFn, (is_vecFn _ _).vecAt_eq i0 (by rw [length_elems hs]; exact i1)]

theorem wrote_refl (v : View) (m : List α) : v.Wrote m m (v.elems m) := ⟨rfl, rfl, fun _ _ => rfl⟩

theorem mirrors_of_sim {v : View} {m : List α} {r r' : Res (List α)} (h : Sim (fun z m' => v.Wrote m m' z) r r') : v.Mirrors m r r' := by
  cases r with
  | ok z => exact h
  | error e => exact h

end View

/-! ### The functions that first set the result to zero -/

/-- What the loops need to know about the states `z` (the result as a list) and `m` (the memory): reading the argument gives the elements of
`xs`, reading the result gives the elements of `z`, and values that are kept can be written. -/
structure Scatter [Zero α] [Add α] [Mul α] (R : List α → List α → Prop) (keep : α → Prop) (x y : View) (xs : List α) : Prop where
  get : ∀ {z m c}, R z m → 0 ≤ c → x.get m c = vrd xs c
  own : ∀ {z m c}, R z m → 0 ≤ c → y.get m c = vrd z c
  put : ∀ {z m c a}, R z m → 0 ≤ c → keep a → Sim R (vwr z c a) (y.put m c a)
  zero : keep 0
  old : ∀ {z m c a}, R z m → vrd z c = .ok a → keep a
  step : ∀ {s d a c}, keep s → vrd xs c = .ok a → keep (s + d * a)

namespace Scatter
variable [Zero α] [Add α] [Mul α] {R : List α → List α → Prop} {keep : α → Prop} {x y : View} {xs ys m : List α}

theorem add (S : Scatter R keep x y xs) {z m : List α} (h : R z m) {c i : Int} (hc : 0 ≤ c) (hi : 0 ≤ i) (d : α) :
    Sim R (do let a ← vrd xs i; let old ← vrd z c; vwr z c (old + d * a)) (do let a ← x.get m i; let old ← y.get m c; y.put m c (old + d * a)) := by
  rw [S.get h hi, S.own h hc]
  exact Sim.same (fun a ha => Sim.same (fun old ho => S.put h hc (S.step (S.old h ho) ha)))

theorem csrAT (S : Scatter R keep x y xs) (A : Csr α) (hA : A.WF) (hx : (xs.length : Int) = x.size) (hy : (ys.length : Int) = y.size)
    (h0 : ∃ m0, y.fill 0 m = .ok m0 ∧ R (List.replicate ys.length 0) m0) : Sim R (A.multAT xs ys) (A.multATView x y m) := by
  unfold Csr.multAT Csr.multATView
  rw [hx, hy]
  obtain ⟨m0, hm0, h0⟩ := h0
  refine Sim.same (fun _ _ => Sim.same (fun _ _ => ?_))
  rw [hm0, ok_bind]
  refine forUp_mirror h0 (fun i z m hi _ hR => Csr.forRow_sim' hR (fun j z m hR => Sim.same (fun c hc => Sim.same (fun d _ => ?_))))
  exact S.add hR (hA.cols_ok c (mem_of_rd hc)).1 hi d

theorem dense (S : Scatter R keep x y xs) (D : Dense α) (hx : (xs.length : Int) = x.size) (hy : (ys.length : Int) = y.size)
    (h0 : ∃ m0, y.fill 0 m = .ok m0 ∧ R (List.replicate ys.length 0) m0) : Sim R (D.mult xs ys) (D.multView x y m) := by
  unfold Dense.mult Dense.multView
  rw [hx, hy]
  obtain ⟨m0, hm0, h0⟩ := h0
  refine Sim.same (fun _ _ => Sim.same (fun _ _ => ?_))
  rw [hm0, ok_bind]
  exact forUp_mirror h0 (fun j z m hj _ hR => forUp_mirror hR (fun i z m hi _ hR => Sim.same (fun d _ => S.add hR hi hj d)))

theorem coo (S : Scatter R keep x y xs) (C : Coo α) (hC : C.WF) (hx : (xs.length : Int) = x.size) (hy : (ys.length : Int) = y.size)
    (h0 : ∃ m0, y.fill 0 m = .ok m0 ∧ R (List.replicate ys.length 0) m0) : Sim R (C.mult xs ys) (C.multView x y m) := by
  unfold Coo.mult Coo.multView
  rw [hx, hy]
  obtain ⟨m0, hm0, h0⟩ := h0
  refine Sim.same (fun _ _ => Sim.same (fun _ _ => ?_))
  rw [hm0, ok_bind]
  exact foldlM_mirror _ h0 (fun e z m he hR => S.add hR (hC.entry_nonneg e he).1 (hC.entry_nonneg e he).2 e.2.2)

theorem cooAT (S : Scatter R keep x y xs) (C : Coo α) (hC : C.WF) (hx : (xs.length : Int) = x.size) (hy : (ys.length : Int) = y.size)
    (h0 : ∃ m0, y.fill 0 m = .ok m0 ∧ R (List.replicate ys.length 0) m0) : Sim R (C.multAT xs ys) (C.multATView x y m) := by
  unfold Coo.multAT Coo.multATView
  rw [hx, hy]
  obtain ⟨m0, hm0, h0⟩ := h0
  refine Sim.same (fun _ _ => Sim.same (fun _ _ => ?_))
  rw [hm0, ok_bind]
  exact foldlM_mirror _ h0 (fun e z m he hR => S.add hR (hC.entry_nonneg e he).2 (hC.entry_nonneg e he).1 e.2.2)

theorem lil (S : Scatter R keep x y xs) (L : Lil α) (hL : L.WF) (hx : (xs.length : Int) = x.size) (hy : (ys.length : Int) = y.size)
    (h0 : ∃ m0, y.fill 0 m = .ok m0 ∧ R (List.replicate ys.length 0) m0) : Sim R (L.mult xs ys) (L.multView x y m) := by
  unfold Lil.mult Lil.multView
  rw [hx, hy]
  obtain ⟨m0, hm0, h0⟩ := h0
  refine Sim.same (fun _ _ => Sim.same (fun _ _ => ?_))
  rw [hm0, ok_bind]
  exact forUp_mirror h0 (fun i z m hi _ hR => Sim.same (fun row hrow => foldlM_mirror _ hR (fun e z m he hR =>
    S.add hR hi (hL.cols_ok row (mem_of_rd hrow) e he).1 e.2)))

theorem lilAT (S : Scatter R keep x y xs) (L : Lil α) (hL : L.WF) (hx : (xs.length : Int) = x.size) (hy : (ys.length : Int) = y.size)
    (h0 : ∃ m0, y.fill 0 m = .ok m0 ∧ R (List.replicate ys.length 0) m0) : Sim R (L.multAT xs ys) (L.multATView x y m) := by
  unfold Lil.multAT Lil.multATView
  rw [hx, hy]
  obtain ⟨m0, hm0, h0⟩ := h0
  refine Sim.same (fun _ _ => Sim.same (fun _ _ => ?_))
  rw [hm0, ok_bind]
  exact forUp_mirror h0 (fun i z m hi _ hR => Sim.same (fun row hrow => foldlM_mirror _ hR (fun e z m he hR =>
    S.add hR (hL.cols_ok row (mem_of_rd hrow) e he).1 hi e.2)))

theorem block (S : Scatter R keep x y xs) (B : BlockMat α) (hB : B.WF) (hx : (xs.length : Int) = x.size) (hy : (ys.length : Int) = y.size)
    (h0 : ∃ m0, y.fill 0 m = .ok m0 ∧ R (List.replicate ys.length 0) m0) : Sim R (B.mult xs ys) (B.multView x y m) := by
  unfold BlockMat.mult BlockMat.multView
  rw [hx, hy]
  obtain ⟨m0, hm0, h0⟩ := h0
  refine Sim.same (fun _ _ => Sim.same (fun _ _ => ?_))
  rw [hm0, ok_bind]
  refine BlockMat.forRows_sim hB h0 (fun i row l z m hrow hR => ?_)
  refine Sim.bind (R := fun (a b : α) => a = b ∧ keep a) (BlockMat.forEntries_sim hB ⟨rfl, S.zero⟩ ?_) ?_
  · rintro c d s t hc ⟨rfl, hk⟩
    rw [S.get hR hc]
    exact Sim.same (fun a ha => Sim.ok ⟨rfl, S.step hk ha⟩)
  · rintro s t ⟨rfl, hk⟩
    exact S.put hR hrow hk

theorem blockAT (S : Scatter R keep x y xs) (B : BlockMat α) (hB : B.WF) (hx : (xs.length : Int) = x.size) (hy : (ys.length : Int) = y.size)
    (h0 : ∃ m0, y.fill 0 m = .ok m0 ∧ R (List.replicate ys.length 0) m0) : Sim R (B.multAT xs ys) (B.multATView x y m) := by
  unfold BlockMat.multAT BlockMat.multATView
  rw [hx, hy]
  obtain ⟨m0, hm0, h0⟩ := h0
  refine Sim.same (fun _ _ => Sim.same (fun _ _ => ?_))
  rw [hm0, ok_bind]
  exact BlockMat.forRows_sim hB h0 (fun i row l z m hrow hR => BlockMat.forEntries_sim hB hR (fun c d z m hc hR => S.add hR hc hrow d))

end Scatter

/-- Views that share nothing. -/
theorem scatter_apart [Zero α] [Add α] [Mul α] {x y : View} {m : List α} (hx : x.InMem m) (hy : y.InMem m) (ha : x.Apart y) :
    Scatter (fun z m' => y.Wrote m m' z) (fun _ => True) x y (x.elems m) where
  get h hc := h.get_apart hx ha hc
  own h hc := h.get_own hy hc
  put h hc _ := h.put hy hc _
  zero := trivial
  old _ _ := trivial
  step _ _ := trivial

theorem vrd_zero [Zero α] {n : Nat} {c : Int} {a : α} (h : vrd (List.replicate n (0 : α)) c = .ok a) : a = 0 := by
  unfold vrd at h
  obtain ⟨_, _, h⟩ := bind_eq_ok.1 h
  exact List.eq_of_mem_replicate (mem_of_rd h)

/-- The same view, once it shows zeros. -/
theorem scatter_same [NonUnitalNonAssocSemiring α] {v : View} {m : List α} (hv : v.InMem m) :
    Scatter (fun z m' => v.Wrote m m' z ∧ z = List.replicate (v.elems m).length 0) (fun a => a = 0) v v (List.replicate (v.elems m).length 0) where
  get h hc := by rw [h.1.get_own hv hc, h.2]
  own h hc := h.1.get_own hv hc
  put {z m' c a} h hc ha := by
    obtain ⟨h, rfl⟩ := h
    subst ha
    have h1 := h.put hv hc 0
    cases hw : vwr (List.replicate (v.elems m).length (0 : α)) c 0 with
    | error e =>
      rw [hw] at h1
      exact h1
    | ok z' =>
      rw [hw] at h1
      obtain ⟨m'', h2, h3⟩ := h1
      refine ⟨m'', h2, h3, ?_⟩
      unfold vwr wr at hw
      obtain ⟨_, _, hw⟩ := bind_eq_ok.1 hw
      split at hw
      · cases hw
        simp
      · cases hw
  zero := rfl
  old h ha := by
    rw [h.2] at ha
    exact vrd_zero ha
  step hs ha := by rw [hs, vrd_zero ha, mul_zero, add_zero]

theorem wrote_fill_same [Zero α] {v : View} {m : List α} (hv : v.InMem m) :
    ∃ m0, v.fill 0 m = .ok m0 ∧ v.Wrote m m0 (List.replicate (v.elems m).length 0) ∧ List.replicate (v.elems m).length 0 = List.replicate (v.elems m).length (0 : α) := by
  obtain ⟨m0, h, hw⟩ := View.wrote_fill hv
  exact ⟨m0, h, hw, rfl⟩

/-! ### The functions that write each element once -/

theorem Csr.mult_apart [Zero α] [Add α] [Mul α] {x y : View} {m : List α} (A : Csr α) (hA : A.WF) (hx : x.InMem m) (hy : y.InMem m) (ha : x.Apart y) :
    Sim (fun z m' => y.Wrote m m' z) (A.mult (x.elems m) (y.elems m)) (A.multView x y m) := by
  unfold Csr.mult Csr.multView
  rw [View.length_elems hx.size_nonneg, View.length_elems hy.size_nonneg]
  refine Sim.same (fun _ _ => Sim.same (fun _ _ => ?_))
  refine forUp_mirror (y.wrote_refl m) (fun i z m' hi _ hR => ?_)
  refine Sim.bind (R := fun (a b : α) => a = b) (Csr.forRow_sim' rfl ?_) (fun s t hst => by rw [← hst]; exact hR.put hy hi s)
  rintro j s t rfl
  refine Sim.same (fun d _ => Sim.same (fun c hc => ?_))
  rw [hR.get_apart hx ha (hA.cols_ok c (mem_of_rd hc)).1]
  exact Sim.same (fun a _ => Sim.ok rfl)

theorem Dense.multAT_apart [Zero α] [Add α] [Mul α] {x y : View} {m : List α} (D : Dense α) (hx : x.InMem m) (hy : y.InMem m) (ha : x.Apart y) :
    Sim (fun z m' => y.Wrote m m' z) (D.multAT (x.elems m) (y.elems m)) (D.multATView x y m) := by
  unfold Dense.multAT Dense.multATView
  rw [View.length_elems hx.size_nonneg, View.length_elems hy.size_nonneg]
  refine Sim.same (fun _ _ => Sim.same (fun _ _ => ?_))
  refine forUp_mirror (y.wrote_refl m) (fun j z m' hj _ hR => ?_)
  refine Sim.bind (R := fun (a b : α) => a = b) (forUp_mirror rfl ?_) (fun s t hst => by rw [← hst]; exact hR.put hy hj s)
  rintro i s t hi _ rfl
  refine Sim.same (fun d _ => ?_)
  rw [hR.get_apart hx ha hi]
  exact Sim.same (fun a _ => Sim.ok rfl)

/-- A loop that writes element `i` from the memory as it is then: later elements see the earlier ones. -/
theorem seqLoop {N : Nat} {v : View} {n : Int} (hn : 0 ≤ n) (f : Int → α) (G : Int → (Int → α) → α) (body : Int → List α → Res (List α))
    (hb : ∀ (i : Int) (h : Int → α), 0 ≤ i → i < n → body i (vecFn N h) = .ok (vecFn N (fun p => if p = v.off + i then G i h else h p))) :
    ∃ z : Int → α, forUp 0 n (vecFn N f) body = .ok (vecFn N (fun p => if v.off ≤ p ∧ p < v.off + n then z (p - v.off) else f p)) ∧
      ∀ i, 0 ≤ i → i < n → z i = G i (fun p => if v.off ≤ p ∧ p < v.off + i then z (p - v.off) else f p) := by
  have key : ∀ k : Nat, (k : Int) ≤ n → ∃ z : Int → α,
      forUp 0 (k : Int) (vecFn N f) body = .ok (vecFn N (fun p => if v.off ≤ p ∧ p < v.off + k then z (p - v.off) else f p)) ∧
      ∀ i : Int, 0 ≤ i → i < k → z i = G i (fun p => if v.off ≤ p ∧ p < v.off + i then z (p - v.off) else f p) := by
    intro k
    induction k with
    | zero =>
      intro _
      refine ⟨f, ?_, fun i h0 h1 => by omega⟩
      rw [Nat.cast_zero, forUp_nil (le_refl _)]
      congr 1
      exact vecFn_congr (fun p _ _ => by rw [if_neg (by omega)])
    | succ k ih =>
      intro hk
      obtain ⟨z, hz, hG⟩ := ih (by omega)
      refine ⟨fun i => if i = k then G k (fun p => if v.off ≤ p ∧ p < v.off + k then z (p - v.off) else f p) else z i, ?_, ?_⟩
      · rw [Nat.cast_succ, forUp_last (by omega), hz, ok_bind, hb k _ (by omega) (by omega)]
        congr 1
        apply vecFn_congr
        intro p _ _
        by_cases hp : p = v.off + k
        · rw [if_pos hp, if_pos (by omega)]
          exact (if_pos (by omega)).symm
        · rw [if_neg hp]
          by_cases hq : v.off ≤ p ∧ p < v.off + k
          · rw [if_pos hq, if_pos (by omega)]
            exact (if_neg (by omega)).symm
          · rw [if_neg hq, if_neg (by omega)]
      · intro i h0 h1
        have e : ∀ i : Int, i ≤ k → (fun p => if v.off ≤ p ∧ p < v.off + i then (if p - v.off = (k : Int) then G k (fun p => if v.off ≤ p ∧ p < v.off + k then z (p - v.off) else f p) else z (p - v.off)) else f p)
            = (fun p => if v.off ≤ p ∧ p < v.off + i then z (p - v.off) else f p) := by
          intro i hi
          funext p
          by_cases hq : v.off ≤ p ∧ p < v.off + i
          · rw [if_pos hq, if_pos hq, if_neg (by omega)]
          · rw [if_neg hq, if_neg hq]
        beta_reduce
        rw [e i (by omega)]
        by_cases hi : i = k
        · rw [if_pos hi, hi]
        · rw [if_neg hi, hG i h0 (by omega)]
  obtain ⟨z, h⟩ := key n.toNat (by omega)
  rw [Int.toNat_of_nonneg hn] at h
  exact ⟨z, h⟩

/-- The memory after such a loop over the whole view. -/
theorem View.seqLoop_wrote [Zero α] {v : View} {m : List α} (hv : v.InMem m) (G : Int → (Int → α) → α) (body : Int → List α → Res (List α))
    (hb : ∀ (i : Int) (h : Int → α), 0 ≤ i → i < v.size →
      body i (vecFn m.length h) = .ok (vecFn m.length (fun p => if p = v.off + i then G i h else h p))) :
    ∃ m' z, forUp 0 v.size m body = .ok m' ∧ v.Wrote m m' z ∧ (z.length : Int) = v.size ∧
      ∀ i, 0 ≤ i → i < v.size → vecAt z i = G i (fun p => if v.off ≤ p ∧ p < v.off + i then vecAt z (p - v.off) else vecAt m p) := by
  have hs := hv.size_nonneg
  obtain ⟨n, hn⟩ : ∃ n : Nat, v.size = n := ⟨v.size.toNat, by omega⟩
  obtain ⟨z, hz, hG⟩ := seqLoop (N := m.length) (v := v) hs (vecAt m) G body hb
  have hzn : ∀ i, 0 ≤ i → i < v.size → vecAt (vecFn n z) i = z i := fun i h0 h1 => (is_vecFn n z).vecAt_eq h0 (by omega)
  rw [← eq_vecFn_vecAt m] at hz
  refine ⟨_, vecFn n z, hz, wrote_vecFn hv z (vecFn n z) (by simp [hn]) hzn, by simp [hn], ?_⟩
  intro i h0 h1
  rw [hzn i h0 h1, hG i h0 h1]
  congr 1
  funext p
  by_cases hp : v.off ≤ p ∧ p < v.off + i
  · rw [if_pos hp, if_pos hp, hzn _ (by omega) (by omega)]
  · rw [if_neg hp, if_neg hp]

theorem Csr.mult_same [Zero α] [Add α] [Mul α] {v : View} {m : List α} (A : Csr α) (hA : A.WF) (hv : v.InMem m) (hr : A.rows = v.size) (hc : A.cols = v.size) :
    ∃ m' z, A.multView v v m = .ok m' ∧ v.Wrote m m' z ∧ (z.length : Int) = v.size ∧
      ∀ i, 0 ≤ i → i < v.size →
        vecAt z i = addUp ((A.row i).map (fun e => e.2 * (if e.1 < i then vecAt z e.1 else vecAt (v.elems m) e.1))) := by
  have h0 := hv.off_nonneg
  have h1 := hv.fits
  obtain ⟨m', z, hm, hw, hl, hz⟩ := View.seqLoop_wrote hv (fun i h => addUp ((A.row i).map (fun e => e.2 * h (v.off + e.1))))
    (fun i m => do
      let val ← A.forRow i (0 : α) (fun j val => do
        let d ← rd A.data j
        let c ← rd A.indices j
        let x ← v.get m c
        .ok (val + d * x))
      v.put m i val) (by
    intro i h i0 i1
    beta_reduce
    have e : (A.forRow i (0 : α) (fun j val => do
        let d ← rd A.data j
        let c ← rd A.indices j
        let x ← v.get (vecFn m.length h) c
        .ok (val + d * x))) = .ok (addUp ((A.row i).map (fun e => e.2 * h (v.off + e.1)))) := by
      obtain ⟨n, rs, hn, hrs, rfl⟩ := hA.exists_rows
      obtain ⟨k, rfl⟩ := Int.eq_ofNat_of_zero_le i0
      have hk : k < rs.length := by
        have : (Csr.ofRows n rs).rows = (rs.length : Int) := rfl
        omega
      rw [Csr.row_ofRows n rs k hk]
      rw [Csr.forRow_ofRows n rs k hk _ _ (fun e val => .ok (val + e.2 * h (v.off + e.1)))]
      · have := (foldlM_eq_foldl (l := rs[k]) (f := fun (val : α) e => (.ok (val + e.2 * h (v.off + e.1)) : Res α))
          (g := fun val e => val + e.2 * h (v.off + e.1)) (fun _ => True) (s := (0 : α)) trivial
          (fun _ _ _ _ => ⟨rfl, trivial⟩)).1
        rw [this, addUp, List.foldl_map]
      · intro j hj s
        rw [rd_data_ofRows n rs k j hk hj, rd_indices_ofRows n rs k j hk hj]
        simp only [ok_bind]
        have := hrs _ (List.getElem_mem hk) _ (List.getElem_mem hj)
        have hc' : n = v.size := hc
        rw [View.get_vecFn h0 (by omega) this.1 (by omega)]
        rfl
    rw [e, ok_bind, View.put_vecFn _ h0 (by omega) i0 i1])
  refine ⟨m', z, ?_, hw, hl, ?_⟩
  · unfold Csr.multView
    rw [cassert_true hc.symm, cassert_true hr.symm, ok_bind, ok_bind, hr]
    exact hm
  · intro i i0 i1
    rw [hz i i0 i1]
    congr 1
    apply List.map_congr_left
    intro e he
    have hok := Csr.mem_row_ok hA he
    congr 1
    beta_reduce
    by_cases hlt : e.1 < i
    · rw [if_pos hlt, if_pos (by omega)]
      congr 1
      omega
    · rw [if_neg hlt, if_neg (by omega), (View.is_elems hv.size_nonneg m).vecAt_eq hok.2.2.1 (by omega)]

theorem Dense.multAT_same [Zero α] [Add α] [Mul α] {v : View} {m : List α} (D : Dense α) (hD : D.WF) (hv : v.InMem m) (hr : D.rows = v.size) (hc : D.cols = v.size) :
    ∃ m' z, D.multATView v v m = .ok m' ∧ v.Wrote m m' z ∧ (z.length : Int) = v.size ∧
      ∀ j, 0 ≤ j → j < v.size →
        vecAt z j = addUp ((iota D.rows.toNat).map (fun i => D.entry i j * (if i < j then vecAt z i else vecAt (v.elems m) i))) := by
  have h0 := hv.off_nonneg
  have h1 := hv.fits
  have hs := hv.size_nonneg
  obtain ⟨m', z, hm, hw, hl, hz⟩ := View.seqLoop_wrote hv (fun j h => addUp ((iota D.rows.toNat).map (fun i => D.entry i j * h (v.off + i))))
    (fun j m => do
      let val ← forUp 0 D.rows (0 : α) (fun i val => do
        let a ← D.get i j
        let x ← v.get m i
        .ok (val + a * x))
      v.put m j val) (by
    intro j h j0 j1
    beta_reduce
    have e : (forUp 0 D.rows (0 : α) (fun i val => do
        let a ← D.get i j
        let x ← v.get (vecFn m.length h) i
        .ok (val + a * x))) = .ok (addUp ((iota D.rows.toNat).map (fun i => D.entry i j * h (v.off + i)))) := by
      obtain ⟨n, hn⟩ : ∃ n : Nat, D.rows = n := ⟨D.rows.toNat, by omega⟩
      have e1 := forUp_congr (a := 0) (b := D.rows) (0 : α) (f := fun i val => do
          let a ← D.get i j
          let x ← v.get (vecFn m.length h) i
          .ok (val + a * x)) (g := fun i val => .ok (val + D.entry i j * h (v.off + i))) (by
        intro i s i0 i1
        rw [hD.is_entry.get_eq i j i0 i1 j0 (by omega), ok_bind, View.get_vecFn h0 (by omega) i0 (by omega), ok_bind])
      rw [e1, hn, forUp_iota, Int.toNat_natCast]
      have := (foldlM_eq_foldl (l := iota n) (f := fun (val : α) i => (.ok (val + D.entry i j * h (v.off + i)) : Res α))
          (g := fun val i => val + D.entry i j * h (v.off + i)) (fun _ => True) (s := (0 : α)) trivial
          (fun _ _ _ _ => ⟨rfl, trivial⟩)).1
      rw [this, addUp, List.foldl_map]
    rw [e, ok_bind, View.put_vecFn _ h0 (by omega) j0 j1])
  refine ⟨m', z, ?_, hw, hl, ?_⟩
  · unfold Dense.multATView
    rw [cassert_true hr.symm, cassert_true hc.symm, ok_bind, ok_bind, hc]
    exact hm
  · intro j j0 j1
    rw [hz j j0 j1]
    congr 1
    apply List.map_congr_left
    intro i hi
    have hok := mem_iota.1 hi
    congr 1
    beta_reduce
    by_cases hlt : i < j
    · rw [if_pos hlt, if_pos (by omega)]
      congr 1
      omega
    · rw [if_neg hlt, if_neg (by omega), (View.is_elems hs m).vecAt_eq hok.1 (by omega)]

/-! ### BlockOperator -/

theorem viewElems_eq [Zero α] {v : View} {m : List α} (hv : v.InMem m) : BlockOp.viewElems v m = .ok (v.elems m) := by
  have h0 := hv.off_nonneg
  have h1 := hv.fits
  have hs := hv.size_nonneg
  unfold BlockOp.viewElems Csr.slice
  rw [if_pos ⟨h0, by omega, h1⟩]
  congr 1
  apply List.ext_getElem
  · have := View.length_elems hs m
    simp only [List.length_take, List.length_drop]
    omega
  · intro k h2 h3
    have h4 := View.length_elems hs m
    have e := (View.is_elems hs m).get_eq k (by omega) (by omega)
    rw [rd_nat h3] at e
    rw [Except.ok.inj e, vecAt_int m (by omega) (by omega)]
    simp only [List.getElem_take, List.getElem_drop]
    congr 1
    omega

theorem View.copyOut [Zero α] {v : View} {m z : List α} (hv : v.InMem m) (hz : (z.length : Int) = v.size) :
    ∃ m', forUp 0 v.size m (fun i m => do
      let a ← rd z i
      v.put m i a) = .ok m' ∧ v.Wrote m m' z := by
  have h0 := hv.off_nonneg
  have h1 := hv.fits
  have hs := hv.size_nonneg
  refine ⟨_, ?_, wrote_vecFn hv (vecAt z) z hz (fun _ _ _ => rfl)⟩
  conv => lhs; rw [eq_vecFn_vecAt m]
  refine mapLoop v.off hs (vecAt m) (vecAt z) _ (fun i h i0 i1 _ => ?_)
  rw [rd_vecAt z i0 (by omega), ok_bind, View.put_vecFn _ h0 (by omega) i0 i1]

end Linalg
