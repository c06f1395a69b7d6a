import Verif.Model.Width
import Verif.Proof.Sums

/-! # Arithmetic of finite range: helper lemmas -/

namespace Linalg
open Cpp

variable {α β σ : Type}

theorem fit_ok {M x : Int} (h0 : -M - 1 ≤ x) (h1 : x ≤ M) : fit M x = .ok x := if_pos ⟨h0, h1⟩

theorem fit_not {M x : Int} (h : ¬ (-M - 1 ≤ x ∧ x ≤ M)) : fit M x = .error .undefinedBehaviour := if_neg h

theorem castInt_eq {M : Int} {n : Nat} (h : (n : Int) ≤ M) : castInt M n = n := by
  unfold castInt
  rw [Int.emod_eq_of_lt (by omega) (by omega)]
  omega

theorem wr_eq_ok {v w : List α} {i : Int} {x : α} (h : wr v i x = .ok w) : 0 ≤ i ∧ i < v.length ∧ w = v.set i.toNat x := by
  unfold wr at h
  split at h
  · rename_i hh
    exact ⟨hh.1, hh.2, (Except.ok.inj h).symm⟩
  · exact absurd h nofun

theorem mkVec_eq_ok {n : Int} {x : α} {v : List α} (h : mkVec n x = .ok v) : 0 ≤ n ∧ v = List.replicate n.toNat x := by
  unfold mkVec at h
  split at h
  · rename_i hh
    exact ⟨hh, (Except.ok.inj h).symm⟩
  · exact absurd h nofun

/-! ## The checked function returns the same whenever the other returns -/

/-- If `u` returns, then `c` returns the same, and that has the property. -/
def Imp (P : σ → Prop) (u c : Res σ) : Prop := ∀ r, u = .ok r → c = .ok r ∧ P r

theorem Imp.bind {P : α → Prop} {Q : β → Prop} {u c : Res α} {f g : α → Res β} (h : Imp P u c) (hf : ∀ a, P a → Imp Q (f a) (g a)) :
    Imp Q (u >>= f) (c >>= g) := by
  intro r hr
  obtain ⟨a, ha, hb⟩ := bind_eq_ok.1 hr
  obtain ⟨h1, h2⟩ := h a ha
  rw [h1, ok_bind]
  exact hf a h2 r hb

theorem Imp.same {P : σ → Prop} {u : Res σ} (h : ∀ r, u = .ok r → P r) : Imp P u u := fun r hr => ⟨hr, h r hr⟩

theorem Imp.any (u : Res σ) : Imp (fun _ => True) u u := fun _ hr => ⟨hr, trivial⟩

theorem Imp.mono {P Q : σ → Prop} {u c : Res σ} (h : Imp P u c) (hq : ∀ r, P r → Q r) : Imp Q u c := fun r hr => ⟨(h r hr).1, hq r (h r hr).2⟩

theorem Imp.and {P Q : σ → Prop} {u c : Res σ} (h : Imp P u c) (hq : ∀ r, u = .ok r → Q r) : Imp (fun r => P r ∧ Q r) u c :=
  fun r hr => ⟨(h r hr).1, (h r hr).2, hq r hr⟩

theorem forN_imp {f g : Int → σ → Res σ} (I : Int → σ → Prop) (n : Nat) (a : Int) (s : σ) (h0 : I a s)
    (hs : ∀ i s, a ≤ i → i < a + n → I i s → Imp (I (i + 1)) (f i s) (g i s)) : Imp (I (a + n)) (forN f n a s) (forN g n a s) := by
  induction n generalizing a s with
  | zero =>
    intro r hr
    obtain rfl := Except.ok.inj hr
    exact ⟨rfl, by simpa using h0⟩
  | succ n ih =>
    intro r hr
    obtain ⟨x, hx, hr'⟩ := bind_eq_ok.1 hr
    obtain ⟨h1, h2⟩ := hs a s (le_refl _) (by omega) h0 x hx
    obtain ⟨h3, h4⟩ := ih (a + 1) x h2 (fun i s i0 i1 hi => hs i s (by omega) (by omega) hi) r hr'
    refine ⟨?_, by rw [show a + ((n + 1 : Nat) : Int) = a + 1 + n by omega]; exact h4⟩
    show (g a s >>= fun s' => forN g n (a + 1) s') = _
    rw [h1, ok_bind, h3]

theorem forUp_imp {f g : Int → σ → Res σ} (I : Int → σ → Prop) {a b : Int} {s : σ} (hab : a ≤ b) (h0 : I a s)
    (hs : ∀ i s, a ≤ i → i < b → I i s → Imp (I (i + 1)) (f i s) (g i s)) : Imp (I b) (forUp a b s f) (forUp a b s g) := by
  have := forN_imp I (b - a).toNat a s h0 (fun i s i0 i1 hi => hs i s i0 (by omega) hi)
  rw [show a + ((b - a).toNat : Int) = b by omega] at this
  exact this

/-- With an invariant that does not depend on the counter the bounds do not matter. -/
theorem forUp_imp' {f g : Int → σ → Res σ} (I : σ → Prop) {a b : Int} {s : σ} (h0 : I s)
    (hs : ∀ i s, a ≤ i → i < b → I s → Imp I (f i s) (g i s)) : Imp I (forUp a b s f) (forUp a b s g) := by
  by_cases hab : a ≤ b
  · exact forUp_imp (fun _ => I) hab h0 hs
  · rw [forUp_nil (by omega), forUp_nil (by omega)]
    exact Imp.same (fun r hr => Except.ok.inj hr ▸ h0)

theorem Csr.forRow_imp {A : Csr α} {i : Int} {f g : Int → σ → Res σ} (I : σ → Prop) {s : σ} (h0 : I s)
    (hs : ∀ i s, I s → Imp I (f i s) (g i s)) : Imp I (A.forRow i s f) (A.forRow i s g) :=
  (Imp.any _).bind (fun _ _ => (Imp.any _).bind (fun _ _ => forUp_imp' I h0 (fun i s _ _ hi => hs i s hi)))

theorem foldlM_imp {f g : σ → β → Res σ} (I : Nat → σ → Prop) (l : List β) (k : Nat) (s : σ) (h0 : I k s)
    (hs : ∀ i s b, k ≤ i → i < k + l.length → I i s → Imp (I (i + 1)) (f s b) (g s b)) : Imp (I (k + l.length)) (l.foldlM f s) (l.foldlM g s) := by
  induction l generalizing k s with
  | nil =>
    intro r hr
    obtain rfl := Except.ok.inj hr
    exact ⟨rfl, h0⟩
  | cons b l ih =>
    intro r hr
    rw [List.foldlM_cons] at hr ⊢
    obtain ⟨x, hx, hr'⟩ := bind_eq_ok.1 hr
    obtain ⟨h1, h2⟩ := hs k s b (le_refl _) (by simp) h0 x hx
    obtain ⟨h3, h4⟩ := ih (k + 1) x h2 (fun i s b i0 i1 hi => hs i s b (by omega) (by simp; omega) hi) r hr'
    refine ⟨by rw [h1, ok_bind, h3], ?_⟩
    rw [List.length_cons, show k + (l.length + 1) = k + 1 + l.length by omega]
    exact h4

/-! ## The checked function fails exactly if a count gets too large -/

/-- If `u` returns, then the count of what it returns is at least `lo`, and if `lo` fits and is not negative, `c` returns the same if the count fits, else is undefined. -/
def Chk (M : Int) (cnt : σ → Int) (lo : Int) (u c : Res σ) : Prop :=
  ∀ r, u = .ok r → lo ≤ cnt r ∧ (0 ≤ lo → lo ≤ M → c = if cnt r ≤ M then .ok r else .error .undefinedBehaviour)

theorem forN_chk {M : Int} {cnt : σ → Int} {f g : Int → σ → Res σ} (hs : ∀ i s, Chk M cnt (cnt s) (f i s) (g i s)) (n : Nat) (a : Int) (s : σ) :
    Chk M cnt (cnt s) (forN f n a s) (forN g n a s) := by
  induction n generalizing a s with
  | zero =>
    intro r hr
    obtain rfl := Except.ok.inj hr
    exact ⟨le_refl _, fun _ h => by rw [if_pos h]; rfl⟩
  | succ n ih =>
    intro r hr
    obtain ⟨x, hx, hr'⟩ := bind_eq_ok.1 hr
    obtain ⟨h1, h2⟩ := hs a s x hx
    obtain ⟨h3, h4⟩ := ih (a + 1) x r hr'
    refine ⟨le_trans h1 h3, fun h0 hM => ?_⟩
    show (g a s >>= fun s' => forN g n (a + 1) s') = _
    rw [h2 h0 hM]
    by_cases hx' : cnt x ≤ M
    · rw [if_pos hx', ok_bind, h4 (by omega) hx']
    · rw [if_neg hx', if_neg (by omega)]
      rfl

theorem Csr.forRow_chk {M : Int} {cnt : σ → Int} {A : Csr α} {i : Int} {f g : Int → σ → Res σ} (hs : ∀ i s, Chk M cnt (cnt s) (f i s) (g i s)) (s : σ) :
    Chk M cnt (cnt s) (A.forRow i s f) (A.forRow i s g) := by
  intro r hr
  unfold Csr.forRow at hr ⊢
  obtain ⟨lo, h1, hr⟩ := bind_eq_ok.1 hr
  obtain ⟨hi, h2, hr⟩ := bind_eq_ok.1 hr
  rw [h1, ok_bind, h2, ok_bind]
  exact forN_chk hs _ _ s r hr

theorem Chk.bind {γ : Type} {M : Int} {cnt : σ → Int} {cnt' : γ → Int} {lo : Int} {u c : Res σ} {f : σ → Res γ} (h : Chk M cnt lo u c)
    (hf : ∀ a r, f a = .ok r → cnt' r = cnt a) : Chk M cnt' lo (u >>= f) (c >>= f) := by
  intro r hr
  obtain ⟨a, ha, hr'⟩ := bind_eq_ok.1 hr
  obtain ⟨h1, h2⟩ := h a ha
  rw [hf a r hr']
  refine ⟨h1, fun h0 hM => ?_⟩
  rw [h2 h0 hM]
  by_cases hc : cnt a ≤ M
  · rw [if_pos hc, if_pos hc, ok_bind, hr']
  · rw [if_neg hc, if_neg hc]
    rfl

/-! ## DenseMatrix -/

theorem Dense.of_checkIdx {D : Dense α} {i j : Int} (h : D.checkIdx i j = .ok ()) : 0 ≤ i ∧ 0 ≤ j ∧ i < D.rows ∧ j < D.cols := by
  unfold Dense.checkIdx at h
  obtain ⟨_, h1, h⟩ := bind_eq_ok.1 h
  obtain ⟨_, h2, h⟩ := bind_eq_ok.1 h
  obtain ⟨_, h3, h4⟩ := bind_eq_ok.1 h
  exact ⟨cassert_ok_iff.1 h1, cassert_ok_iff.1 h2, cassert_ok_iff.1 h3, cassert_ok_iff.1 h4⟩

theorem Dense.index_fits {M : Int} {D : Dense α} (hM : D.rows * D.cols ≤ M) {i j : Int} (h : D.checkIdx i j = .ok ()) :
    D.indexLim M i j = .ok (i + j * D.rows) := by
  obtain ⟨h1, h2, h3, h4⟩ := Dense.of_checkIdx h
  have a : 0 ≤ j * D.rows := mul_nonneg h2 (by omega)
  have b : i + j * D.rows < D.rows * D.cols := by nlinarith
  unfold Dense.indexLim
  rw [fit_ok (by omega) (by omega), ok_bind, fit_ok (by omega) (by omega)]

theorem Dense.getLim_eq {M : Int} {D : Dense α} (hM : D.rows * D.cols ≤ M) (i j : Int) : D.getLim M i j = D.get i j := by
  unfold Dense.getLim Dense.get
  cases h : D.checkIdx i j with
  | error e => rfl
  | ok u => rw [ok_bind, ok_bind, Dense.index_fits hM h, ok_bind]

theorem Dense.putLim_eq {M : Int} {D : Dense α} (hM : D.rows * D.cols ≤ M) (i j : Int) (x : α) : D.putLim M i j x = D.put i j x := by
  unfold Dense.putLim Dense.put
  cases h : D.checkIdx i j with
  | error e => rfl
  | ok u => rw [ok_bind, ok_bind, Dense.index_fits hM h, ok_bind]

theorem Dense.put_size {D D' : Dense α} {i j : Int} {x : α} (h : D.put i j x = .ok D') : D'.rows = D.rows ∧ D'.cols = D.cols := by
  unfold Dense.put at h
  obtain ⟨_, _, h⟩ := bind_eq_ok.1 h
  obtain ⟨_, _, h⟩ := bind_eq_ok.1 h
  obtain rfl := Except.ok.inj h
  exact ⟨rfl, rfl⟩

/-! ## Counting and adding up -/

theorem sum_set_int (p : List Int) (k : Nat) (hk : k < p.length) (x : Int) : (p.set k x).sum = p.sum + (x - p[k]) := by
  induction p generalizing k with
  | nil => simp at hk
  | cons a p ih =>
    cases k with
    | zero => simp only [List.set_cons_zero, List.sum_cons, List.getElem_cons_zero]; omega
    | succ k =>
      simp only [List.set_cons_succ, List.sum_cons, List.getElem_cons_succ]
      rw [ih k (by simpa using hk)]
      omega

theorem sum_nonneg_int {p : List Int} (h : ∀ x ∈ p, 0 ≤ x) : 0 ≤ p.sum := by
  induction p with
  | nil => simp
  | cons a p ih =>
    have := h a (by simp)
    have := ih (fun y hy => h y (List.mem_cons_of_mem _ hy))
    rw [List.sum_cons]
    omega

theorem le_sum_of_nonneg {p : List Int} (h : ∀ x ∈ p, 0 ≤ x) {x : Int} (hx : x ∈ p) : x ≤ p.sum := by
  induction p with
  | nil => simp at hx
  | cons a p ih =>
    have hs : 0 ≤ p.sum := sum_nonneg_int (fun y hy => h y (List.mem_cons_of_mem _ hy))
    have ha := h a (by simp)
    rw [List.sum_cons]
    rcases List.mem_cons.1 hx with rfl | hx
    · omega
    · have := ih (fun y hy => h y (List.mem_cons_of_mem _ hy)) hx
      omega

/-- Counters: none is negative, and they add up to `k`. -/
def CountsTo (k : Int) (p : List Int) : Prop := (∀ x ∈ p, 0 ≤ x) ∧ p.sum = k

theorem countsTo_replicate (n : Nat) : CountsTo 0 (List.replicate n 0) := by
  refine ⟨fun x hx => ?_, by simp⟩
  rw [(List.mem_replicate.1 hx).2]

theorem CountsTo.inc {k : Int} {p : List Int} (h : CountsTo k p) {i : Int} {x : Int} (hx : rd p i = .ok x) :
    0 ≤ x ∧ x ≤ k ∧ ∀ q, wr p i (x + 1) = .ok q → CountsTo (k + 1) q := by
  obtain ⟨h0, hx⟩ := rd_eq_ok.1 hx
  obtain ⟨hl, hx⟩ := List.getElem?_eq_some_iff.1 hx
  have hm : x ∈ p := hx ▸ List.getElem_mem hl
  refine ⟨h.1 x hm, by rw [← h.2]; exact le_sum_of_nonneg h.1 hm, fun q hq => ?_⟩
  obtain ⟨-, -, rfl⟩ := wr_eq_ok hq
  refine ⟨fun y hy => ?_, ?_⟩
  · rcases List.mem_or_eq_of_mem_set hy with hy | rfl
    · exact h.1 y hy
    · have := h.1 x hm; omega
  · rw [sum_set_int p _ hl, hx, h.2]
    omega

/-- While adding up: none is negative, and those from `i` on add up to `k`. -/
def RestTo (k : Int) (i : Int) (p : List Int) : Prop := (∀ x ∈ p, 0 ≤ x) ∧ (p.drop i.toNat).sum = k

theorem RestTo.step {M k i : Int} (hM : k ≤ M) (hM0 : 0 ≤ M) (i0 : 0 ≤ i) {p : List Int} (h : RestTo k i p) :
    Imp (RestTo k (i + 1)) (do
      let x ← rd p (i + 1)
      let y ← rd p i
      let z ← Except.ok (x + y)
      wr p (i + 1) z) (do
      let x ← rd p (i + 1)
      let y ← rd p i
      let z ← fit M (x + y)
      wr p (i + 1) z) := by
  obtain ⟨n, rfl⟩ := Int.eq_ofNat_of_zero_le i0
  intro r hr
  obtain ⟨x, hx, hr⟩ := bind_eq_ok.1 hr
  obtain ⟨y, hy, hr⟩ := bind_eq_ok.1 hr
  rw [ok_bind] at hr
  obtain ⟨-, hx'⟩ := rd_eq_ok.1 hx
  obtain ⟨-, hy'⟩ := rd_eq_ok.1 hy
  obtain ⟨hl, hx'⟩ := List.getElem?_eq_some_iff.1 hx'
  obtain ⟨hl', hy'⟩ := List.getElem?_eq_some_iff.1 hy'
  have e1 : ((n : Int) + 1).toNat = n + 1 := by omega
  have e0 : ((n : Int)).toNat = n := by omega
  simp only [e1] at hl hx'
  simp only [Int.toNat_natCast] at hl' hy'
  have hx0 : 0 ≤ x := h.1 x (hx' ▸ List.getElem_mem hl)
  have hy0 : 0 ≤ y := h.1 y (hy' ▸ List.getElem_mem hl')
  have d := h.2
  rw [e0, List.drop_eq_getElem_cons hl', List.drop_eq_getElem_cons hl, List.sum_cons, List.sum_cons, hx', hy'] at d
  have hr0 : 0 ≤ (p.drop (n + 1 + 1)).sum := sum_nonneg_int (fun z hz => h.1 z (List.mem_of_mem_drop hz))
  rw [hx, ok_bind, hy, ok_bind, fit_ok (by omega) (by omega), ok_bind]
  refine ⟨hr, ?_⟩
  obtain ⟨-, -, rfl⟩ := wr_eq_ok hr
  refine ⟨fun z hz => ?_, ?_⟩
  · rcases List.mem_or_eq_of_mem_set hz with hz | rfl
    · exact h.1 z hz
    · omega
  · rw [e1, List.drop_eq_getElem_cons (by simpa using hl), List.getElem_set_self, List.drop_set_of_lt (by omega), List.sum_cons]
    omega

/-! ## The passes of the sparse product -/

theorem sym_chk {M : Int} (hM : 0 ≤ M) (A B : Csr α) (i : Int) (st : List Int × Int × List Int) :
    Chk M (fun st => st.2.1) st.2.1 (Csr.symOn .ok A B i st) (Csr.symOn (fit M) A B i st) := by
  unfold Csr.symOn
  refine Chk.bind (cnt := fun mn : List Int × Int => mn.2) (Csr.forRow_chk (fun j mn => ?_) _) ?_
  · intro r hr
    obtain ⟨l, h1, hr⟩ := bind_eq_ok.1 hr
    rw [h1, ok_bind]
    refine Csr.forRow_chk (cnt := fun mn : List Int × Int => mn.2) (fun k mn => ?_) mn r hr
    intro r hr
    obtain ⟨c, h1, hr⟩ := bind_eq_ok.1 hr
    obtain ⟨m, h2, hr⟩ := bind_eq_ok.1 hr
    rw [h1, ok_bind, h2, ok_bind]
    by_cases hm : m ≠ i
    · rw [if_pos hm] at hr ⊢
      obtain ⟨q, h3, hr⟩ := bind_eq_ok.1 hr
      rw [ok_bind] at hr
      obtain rfl := Except.ok.inj hr
      rw [h3, ok_bind]
      refine ⟨by show mn.2 ≤ mn.2 + 1; omega, fun h0 hM' => ?_⟩
      show (fit M (mn.2 + 1) >>= fun n => Except.ok (q, n)) = if mn.2 + 1 ≤ M then _ else _
      by_cases hc : mn.2 + 1 ≤ M
      · rw [fit_ok (by omega) hc, if_pos hc]
        rfl
      · rw [fit_not (by omega), if_neg hc]
        rfl
    · rw [if_neg hm] at hr ⊢
      obtain rfl := Except.ok.inj hr
      exact ⟨le_refl _, fun _ hM' => (if_pos hM').symm⟩
  · intro a r hr
    obtain ⟨p, -, hr⟩ := bind_eq_ok.1 hr
    obtain rfl := Except.ok.inj hr
    rfl

theorem num_imp [Add α] [Mul α] {M : Int} {L : Nat} (hM : (L : Int) ≤ M) (A B : Csr α) (i : Int) (st : List Int × Int × List Int × List α)
    (hs : 0 ≤ st.2.1 ∧ st.2.2.1.length = L ∧ st.2.2.2.length = L) :
    Imp (fun st => 0 ≤ st.2.1 ∧ st.2.2.1.length = L ∧ st.2.2.2.length = L) (Csr.numOn .ok A B i st) (Csr.numOn (fit M) A B i st) := by
  unfold Csr.numOn
  refine Csr.forRow_imp _ hs (fun j st hs => (Imp.any _).bind (fun l _ => Csr.forRow_imp _ hs (fun k st hs => ?_)))
  refine (Imp.any _).bind (fun c _ => (Imp.any _).bind (fun m _ => (Imp.any _).bind (fun a _ => (Imp.any _).bind (fun b _ => ?_))))
  split
  · refine (Imp.any _).bind (fun mk _ => ?_)
    refine Imp.bind (Imp.same (P := fun ix => st.2.1 < L ∧ ix.length = L) (fun r hr => ?_)) (fun ix hix => ?_)
    · obtain ⟨-, h1, rfl⟩ := wr_eq_ok hr
      exact ⟨by omega, by simpa using hs.2.1⟩
    refine Imp.bind (Imp.same (P := fun dt => dt.length = L) (fun r hr => ?_)) (fun dt hdt => ?_)
    · obtain ⟨-, h1, rfl⟩ := wr_eq_ok hr
      simpa using hs.2.2
    rw [fit_ok (by omega) (by omega)]
    refine Imp.same (fun r hr => ?_)
    obtain rfl := Except.ok.inj hr
    exact ⟨by show 0 ≤ st.2.1 + 1; omega, hix.2, hdt⟩
  · refine (Imp.any _).bind (fun old _ => ?_)
    refine Imp.bind (Imp.same (P := fun dt => dt.length = L) (fun r hr => ?_)) (fun dt hdt => Imp.same (fun r hr => ?_))
    · obtain ⟨-, h1, rfl⟩ := wr_eq_ok hr
      simpa using hs.2.2
    · obtain rfl := Except.ok.inj hr
      exact ⟨hs.1, hs.2.1, hdt⟩

end Linalg
