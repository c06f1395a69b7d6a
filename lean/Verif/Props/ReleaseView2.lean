import Verif.Model.ReleaseView2
import Verif.Props.ReleaseBlock

/-! # C148: divisions, combinations and parts of vectors without assertions -/

namespace Linalg
open Cpp

variable {α : Type}

/-- **C148.**  With assertions the functions are those of the other models; a division by zero does not happen. -/
theorem C148_debug :
    (∀ [Zero α] [Div α] [DecidableEq α] (x y : View) (m : List α), Rel.divAssign .debug Rel.quot x y m = x.divAssign y m) ∧
    (∀ [Zero α] [Div α] [DecidableEq α] (x : View) (val : α) (m : List α), Rel.divScalar .debug Rel.quot x val m = x.divScalar val m) ∧
    (∀ [Add α] [Mul α] (a b c : α) (x y z : View) (m : List α), Rel.combine .debug a x b y c z m = View.combine a x b y c z m) ∧
    (∀ (v : View) (offsets : List Int) (block : Int), Rel.getBlock .debug v offsets block = v.getBlock offsets block) ∧
    ∀ (D : Dense α) (col : Int), Rel.getColView .debug D col = D.getColView col := by
  refine ⟨fun x y m => ?_, fun x val m => ?_, fun a b c x y z m => rfl, fun v o k => rfl, fun D k => rfl⟩
  · show (cassert (x.size = y.size) >>= fun _ => forUp 0 x.size m _) = (cassert (x.size = y.size) >>= fun _ => forUp 0 x.size m _)
    congr 1
    funext _
    refine forUp_congr _ fun i m _ _ => ?_
    show (y.get m i >>= fun c => (cassert (c ≠ 0) >>= fun _ => (x.get m i >>= fun a => (Rel.quot a c >>= fun q => x.put m i q)))) = _
    congr 1
    funext c
    by_cases hc : c = 0
    · rw [cassert_false (by simpa using hc)]
      rfl
    · rw [cassert_true hc]
      simp only [Rel.quot, if_neg hc]
      rfl
  · by_cases hv : val = 0
    · unfold View.divScalar
      rw [cassert_false (by simpa using hv)]
      show (cassert (val ≠ 0) >>= fun _ => _) = _
      rw [cassert_false (by simpa using hv)]
      rfl
    · unfold View.divScalar
      rw [cassert_true hv]
      show (cassert (val ≠ 0) >>= fun _ => _) = _
      rw [cassert_true hv]
      simp only [Rel.quot, if_neg hv]
      rfl

/-- **C148.**  A call that passes the assertions gives the same result when they are compiled away. -/
theorem C148_same :
    (∀ [Zero α] [Div α] [DecidableEq α] (x y : View) (m : List α), Refines (x.divAssign y m) (Rel.divAssign .release Rel.quot x y m)) ∧
    (∀ [Zero α] [Div α] [DecidableEq α] (x : View) (val : α) (m : List α), Refines (x.divScalar val m) (Rel.divScalar .release Rel.quot x val m)) ∧
    (∀ [Add α] [Mul α] (a b c : α) (x y z : View) (m : List α), Refines (View.combine a x b y c z m) (Rel.combine .release a x b y c z m)) ∧
    (∀ (v : View) (offsets : List Int) (block : Int), Refines (v.getBlock offsets block) (Rel.getBlock .release v offsets block)) ∧
    ∀ (D : Dense α) (col : Int), Refines (D.getColView col) (Rel.getColView .release D col) := by
  refine ⟨fun x y m => ?_, fun x val m => ?_, fun a b c x y z m => ?_, fun v o k => ?_, fun D k => ?_⟩
  · rw [← C148_debug.1]
    exact (Refines.assert _).bind fun _ => Refines.forUp fun i _ => (Refines.get y _ i).bind fun _ => (Refines.assert _).bind fun _ =>
      (Refines.get x _ i).bind fun _ => (Refines.refl _).bind fun _ => Refines.put _ _ _ _
  · rw [← C148_debug.2.1]
    exact (Refines.assert _).bind fun _ => Refines.refl _
  · exact (Refines.assert _).bind fun _ => (Refines.assert _).bind fun _ => Refines.forUp fun i _ => (Refines.get x _ i).bind fun _ =>
      (Refines.get y _ i).bind fun _ => (Refines.get z _ i).bind fun _ => Refines.put _ _ _ _
  · exact (Refines.assert _).bind fun _ => (Refines.refl _).bind fun _ => (Refines.refl _).bind fun _ => (Refines.assert _).bind fun _ => Refines.refl _
  · exact (Refines.assert _).bind fun _ => Refines.refl _

/-- **C148.**  `Add(alpha, x, beta, y, gamma, z)` ignores the lengths of `y` and `z`: it does to memory what it does in a debug build when they have as many
elements as `x`. -/
theorem C148_combine [Add α] [Mul α] (a b c : α) (x y z : View) (m : List α) :
    Rel.combine .release a x b y c z m = View.combine a x b ⟨y.off, x.size⟩ c ⟨z.off, x.size⟩ m := by
  unfold View.combine
  rw [cassert_true rfl, ok_bind, ok_bind]
  have hg : ∀ (v : View) (m : List α) (i : Int), i < x.size → (View.mk v.off x.size).get m i = Rel.get .release v m i := by
    intro v m i hi
    unfold View.get
    rw [cassert_true hi]; rfl
  have hp : ∀ (v : View) (m : List α) (i : Int) u, i < x.size → (View.mk v.off x.size).put m i u = Rel.put .release v m i u := by
    intro v m i u hi
    unfold View.put
    rw [cassert_true hi]; rfl
  exact forUp_congr _ (fun i m _ hi => by
    rw [show x.get m i = Rel.get .release x m i from hg x m i hi, hg y m i hi, hg z m i hi]
    simp only [hp z m i _ hi])

/-- The outcome with a division by zero in place of the failed assertion. -/
def divErr : Res (List α) → Res (List α)
  | .error .assertFail => .error .divZero
  | r => r

theorem divErr_forUp {a b : Int} {f g : Int → List α → Res (List α)} (I : List α → Prop) (s : List α) (h0 : I s)
    (h : ∀ i s, a ≤ i → i < b → I s → f i s = divErr (g i s)) (hI : ∀ i s s', a ≤ i → i < b → I s → g i s = .ok s' → I s') :
    forUp a b s f = divErr (forUp a b s g) := by
  by_cases hab : a ≤ b
  · obtain ⟨n, hn⟩ : ∃ n : Nat, b = a + n := ⟨(b - a).toNat, by omega⟩
    induction n generalizing a s with
    | zero => rw [forUp_nil (by omega), forUp_nil (by omega)]; rfl
    | succ n ih =>
      rw [forUp_cons (by omega), forUp_cons (by omega), h a s le_rfl (by omega) h0]
      cases hg : g a s with
      | error e => cases e <;> rfl
      | ok s' =>
        exact ih s' (hI a s s' le_rfl (by omega) h0 hg) (fun i s h0 h1 => h i s (by omega) h1) (fun i s s' h0 h1 => hI i s s' (by omega) h1)
          (by omega) (by omega)
  · rw [forUp_nil (by omega), forUp_nil (by omega)]; rfl

/-- **C148.**  `lhs /= rhs` of a type whose division by zero is undefined: the length of `rhs` is ignored, and the outcome is that of a debug build except that
it divides by zero where that one stops. -/
theorem C148_divAssign [Zero α] [Div α] [DecidableEq α] (x y : View) (m : List α) (h0 : 0 ≤ x.off) (h1 : x.off + x.size ≤ m.length) :
    Rel.divAssign .release Rel.quot x y m = divErr (x.divAssign ⟨y.off, x.size⟩ m) := by
  unfold View.divAssign
  rw [cassert_true rfl, ok_bind]
  have hg : ∀ (v : View) (m : List α) (i : Int), i < x.size → (View.mk v.off x.size).get m i = rd m (v.off + i) := by
    intro v m i hi
    unfold View.get
    rw [cassert_true hi]; rfl
  have hp : ∀ (m : List α) (i : Int) u, i < x.size → x.put m i u = wr m (x.off + i) u := by
    intro m i u hi
    unfold View.put
    rw [cassert_true hi]; rfl
  refine divErr_forUp (fun m' => m'.length = m.length) _ rfl ?_ ?_
  · intro i m' i0 hi hm
    rw [hg y m' i hi, show x.get m' i = rd m' (x.off + i) from hg x m' i hi]
    show (rd m' (y.off + i) >>= fun c => (rd m' (x.off + i) >>= fun a => (Rel.quot a c >>= fun q => wr m' (x.off + i) q))) = _
    obtain ⟨p, hp'⟩ : ∃ p : Nat, x.off + i = (p : Int) := ⟨(x.off + i).toNat, by omega⟩
    by_cases hy : 0 ≤ y.off + i ∧ y.off + i < (m'.length : Int)
    · rw [rd_int hy.1 hy.2, ok_bind, ok_bind, hp', rd_nat (by omega), ok_bind]
      generalize m'[(y.off + i).toNat] = c
      by_cases hc : c = 0
      · rw [cassert_false (by simpa using hc)]
        simp only [Rel.quot, if_pos hc]
        rfl
      · rw [cassert_true hc]
        simp only [Rel.quot, if_neg hc, ok_bind, hp m' i _ hi]
        rw [hp', wr_nat (by omega)]
        rfl
    · rw [rd_oob (by omega)]
      rfl
  · intro i m' s' i0 hi hm hs
    rw [hg y m' i hi] at hs
    obtain ⟨c, -, hs⟩ := bind_eq_ok.mp hs
    obtain ⟨-, -, hs⟩ := bind_eq_ok.mp hs
    obtain ⟨a, -, hs⟩ := bind_eq_ok.mp hs
    rw [hp m' i _ hi] at hs
    obtain ⟨p, hp'⟩ : ∃ p : Nat, x.off + i = (p : Int) := ⟨(x.off + i).toNat, by omega⟩
    rw [hp', wr_nat (by omega)] at hs
    rw [← Except.ok.inj hs, List.length_set]
    exact hm

/-- **C148.**  `lhs /= rhs` of a type whose division always has a result, where `rhs` is `lhs` or lies apart from it: it works exactly if `lhs` is empty or both lie in
memory, `rhs` with as many elements as `lhs`.  Every element of `lhs` is divided and no other is changed, whether or not a divisor is zero. -/
theorem C148_divFloat [Zero α] [DecidableEq α] (div : α → α → α) (x y : View) (m : List α)
    (ha : y.off = x.off ∨ x.off + x.size ≤ y.off ∨ y.off + x.size ≤ x.off) :
    ((x.size ≤ 0 ∨ (0 ≤ x.off ∧ x.off + x.size ≤ m.length ∧ 0 ≤ y.off ∧ y.off + x.size ≤ m.length)) →
      ∃ m', Rel.divAssign .release (fun a c => .ok (div a c)) x y m = .ok m' ∧ m'.length = m.length ∧
        (∀ i, 0 ≤ i → i < x.size → rd m' (x.off + i) = .ok (div (vecAt m (x.off + i)) (vecAt m (y.off + i)))) ∧
        ∀ p, p < x.off ∨ x.off + x.size ≤ p → rd m' p = rd m p) ∧
    (¬ (x.size ≤ 0 ∨ (0 ≤ x.off ∧ x.off + x.size ≤ m.length ∧ 0 ≤ y.off ∧ y.off + x.size ≤ m.length)) →
      Rel.divAssign .release (fun a c => .ok (div a c)) x y m = .error .outOfBounds) := by
  have hl : Rel.divAssign .release (fun a c => .ok (div a c)) x y m = forUp 0 x.size m (fun i m => do
      let c ← rd m (y.off + i)
      let a ← rd m (x.off + i)
      wr m (x.off + i) (div a c)) := rfl
  rw [hl]
  constructor
  · intro h
    by_cases hs : x.size ≤ 0
    · rw [forUp_nil hs]
      exact ⟨m, rfl, rfl, fun i a b => by omega, fun _ _ => rfl⟩
    · have hb := h.resolve_left hs
      obtain ⟨m', h1, h2, h3, h4⟩ := forUp_inv (a := 0) (b := x.size) (by omega) (s := m) (f := fun i m => do
          let c ← rd m (y.off + i)
          let a ← rd m (x.off + i)
          wr m (x.off + i) (div a c)) (fun k (m' : List α) => m'.length = m.length ∧
            (∀ i, 0 ≤ i → i < k → rd m' (x.off + i) = .ok (div (vecAt m (x.off + i)) (vecAt m (y.off + i)))) ∧
            ∀ p, p < x.off ∨ x.off + k ≤ p → rd m' p = rd m p)
        ⟨rfl, fun i a b => by omega, fun _ _ => rfl⟩ (by
          rintro k m' k0 k1 ⟨e1, e2, e3⟩
          rw [e3 (y.off + k) (by omega), rd_vecAt m (by omega) (by omega), ok_bind, e3 (x.off + k) (by omega), rd_vecAt m (by omega) (by omega), ok_bind]
          obtain ⟨p, hp⟩ : ∃ p : Nat, x.off + k = (p : Int) := ⟨(x.off + k).toNat, by omega⟩
          rw [hp, wr_nat (by omega)]
          refine ⟨_, rfl, by rw [List.length_set]; exact e1, ?_, ?_⟩
          · intro i i0 i1
            by_cases e : i = k
            · subst e
              rw [hp, rd_eq_ok]
              exact ⟨by omega, by rw [Int.toNat_natCast]; exact List.getElem?_set_self (by omega)⟩
            · rw [← e2 i i0 (by omega)]
              unfold rd
              rw [if_pos (by omega), if_pos (by omega), List.getElem?_set_ne (by omega)]
          · intro q hq
            rw [← e3 q (by omega)]
            unfold rd
            by_cases q0 : 0 ≤ q
            · rw [if_pos q0, if_pos q0, List.getElem?_set_ne (by omega)]
            · rw [if_neg q0, if_neg q0])
      exact ⟨m', h1, h2, h3, h4⟩
  · intro h
    have hwr : ∀ (m' : List α) (p : Int) (u : α), m'.length = m.length → wr m' p u = .error .outOfBounds ∨ ∃ s', wr m' p u = .ok s' ∧ s'.length = m.length := by
      intro m' p u hm
      by_cases hp : 0 ≤ p ∧ p < (m'.length : Int)
      · obtain ⟨q, rfl⟩ : ∃ q : Nat, p = (q : Int) := ⟨p.toNat, by omega⟩
        rw [wr_nat (by omega)]
        exact Or.inr ⟨_, rfl, by rw [List.length_set]; exact hm⟩
      · exact Or.inl (wr_oob (by omega))
    have hbad : ∃ k, 0 ≤ k ∧ k < x.size ∧ (x.off + k < 0 ∨ (m.length : Int) ≤ x.off + k ∨ y.off + k < 0 ∨ (m.length : Int) ≤ y.off + k) := by
      by_cases hc : x.off < 0 ∨ y.off < 0
      · exact ⟨0, by omega, by omega, by omega⟩
      · exact ⟨x.size - 1, by omega, by omega, by omega⟩
    obtain ⟨k, k0, k1, hk⟩ := hbad
    refine forUp_stops (fun (m' : List α) => m'.length = m.length) .outOfBounds rfl ?_ ⟨k, k0, k1, ?_⟩
    · intro i m' i0 i1 hm
      by_cases hy : 0 ≤ y.off + i ∧ y.off + i < (m'.length : Int)
      · rw [rd_int hy.1 hy.2, ok_bind]
        by_cases hx : 0 ≤ x.off + i ∧ x.off + i < (m'.length : Int)
        · rw [rd_int hx.1 hx.2, ok_bind]
          exact hwr m' _ _ hm
        · rw [rd_oob (by omega)]; exact Or.inl rfl
      · rw [rd_oob (by omega)]; exact Or.inl rfl
    · intro m' hm
      by_cases hy : 0 ≤ y.off + k ∧ y.off + k < (m'.length : Int)
      · rw [rd_int hy.1 hy.2, ok_bind, rd_oob (by omega)]; rfl
      · rw [rd_oob (by omega)]; rfl

/-- **C148.**  `vect /= 0` in a view of memory: undefined if the division is and the view is not empty; otherwise every element is divided. -/
theorem C148_divScalar [Zero α] [Div α] [DecidableEq α] (div : α → α → α) (x : View) (val : α) (m : List α) (h0 : 0 ≤ x.off) (h1 : x.off + x.size ≤ m.length) :
    (0 < x.size → Rel.divScalar .release Rel.quot x 0 m = .error .divZero) ∧
    (x.size ≤ 0 → Rel.divScalar .release Rel.quot x 0 m = .ok m) ∧
    ∃ m', Rel.divScalar .release (fun a c => .ok (div a c)) x val m = .ok m' ∧ m'.length = m.length ∧
      (∀ i, 0 ≤ i → i < x.size → rd m' (x.off + i) = .ok (div (vecAt m (x.off + i)) val)) ∧
      ∀ p, p < x.off ∨ x.off + x.size ≤ p → rd m' p = rd m p := by
  refine ⟨fun hs => ?_, fun hs => ?_, ?_⟩
  · show forUp 0 x.size m _ = _
    rw [forUp_cons hs, rd_int (by omega) (by omega), ok_bind]
    simp only [Rel.quot, if_true]
    rfl
  · show forUp 0 x.size m _ = _
    exact forUp_nil hs _ _
  · show ∃ m', forUp 0 x.size m (fun i m => do
        let a ← rd m (x.off + i)
        wr m (x.off + i) (div a val)) = .ok m' ∧ _
    by_cases hs : x.size ≤ 0
    · rw [forUp_nil hs]
      exact ⟨m, rfl, rfl, fun i a b => by omega, fun _ _ => rfl⟩
    · obtain ⟨m', h1, h2, h3, h4⟩ := forUp_inv (a := 0) (b := x.size) (by omega) (s := m) (f := fun i m => do
          let a ← rd m (x.off + i)
          wr m (x.off + i) (div a val)) (fun k (m' : List α) => m'.length = m.length ∧
            (∀ i, 0 ≤ i → i < k → rd m' (x.off + i) = .ok (div (vecAt m (x.off + i)) val)) ∧
            ∀ p, p < x.off ∨ x.off + k ≤ p → rd m' p = rd m p)
        ⟨rfl, fun i a b => by omega, fun _ _ => rfl⟩ (by
          rintro k m' k0 k1 ⟨e1, e2, e3⟩
          rw [e3 (x.off + k) (by omega), rd_vecAt m (by omega) (by omega), ok_bind]
          obtain ⟨p, hp⟩ : ∃ p : Nat, x.off + k = (p : Int) := ⟨(x.off + k).toNat, by omega⟩
          rw [hp, wr_nat (by omega)]
          refine ⟨_, rfl, by rw [List.length_set]; exact e1, ?_, ?_⟩
          · intro i i0 i1
            by_cases e : i = k
            · subst e
              rw [hp, rd_eq_ok]
              exact ⟨by omega, by rw [Int.toNat_natCast]; exact List.getElem?_set_self (by omega)⟩
            · rw [← e2 i i0 (by omega)]
              unfold rd
              rw [if_pos (by omega), if_pos (by omega), List.getElem?_set_ne (by omega)]
          · intro q hq
            rw [← e3 q (by omega)]
            unfold rd
            by_cases q0 : 0 ≤ q
            · rw [if_pos q0, if_pos q0, List.getElem?_set_ne (by omega)]
            · rw [if_neg q0, if_neg q0])
      exact ⟨m', h1, h2, h3, h4⟩

/-- **C148.**  `GetBlock(block)` works exactly if there are offsets `block` and `block + 1`, and gives the view between them; if they decrease the view has a negative
size. -/
theorem C148_getBlock (v : View) (offsets : List Int) (block : Int) :
    (0 ≤ block ∧ block + 1 < offsets.length →
      Rel.getBlock .release v offsets block = .ok ⟨v.off + vecAt offsets block, vecAt offsets (block + 1) - vecAt offsets block⟩) ∧
    (¬ (0 ≤ block ∧ block + 1 < offsets.length) → Rel.getBlock .release v offsets block = .error .outOfBounds) := by
  show (_ → (rd offsets block >>= fun lo => rd offsets (block + 1) >>= fun hi => (.ok ⟨v.off + lo, hi - lo⟩ : Res View)) = _) ∧
    (_ → (rd offsets block >>= fun lo => rd offsets (block + 1) >>= fun hi => (.ok ⟨v.off + lo, hi - lo⟩ : Res View)) = _)
  constructor
  · intro h
    rw [rd_vecAt offsets h.1 (by omega), ok_bind, rd_vecAt offsets (by omega) (by omega), ok_bind]
  · intro h
    by_cases hb : 0 ≤ block ∧ block < (offsets.length : Int)
    · rw [rd_vecAt offsets hb.1 hb.2, ok_bind, rd_oob (by omega)]; rfl
    · rw [rd_oob (by omega)]; rfl

/-- **C148.**  `GetColView(col)` of any column is a view of the addresses of that column: its element `i` is what `operator()(i, col)` accesses. -/
theorem C148_getColView (D : Dense α) (col : Int) :
    ∃ v, Rel.getColView .release D col = .ok v ∧ v.size = D.rows ∧ (∀ i, Rel.get .release v D.data i = Rel.dget .release D i col) ∧
      ∀ i x, Rel.put .release v D.data i x = (Rel.dput .release D i col x).map Dense.data := by
  refine ⟨⟨col * D.rows, D.rows⟩, rfl, rfl, fun i => ?_, fun i x => ?_⟩
  · show rd D.data (col * D.rows + i) = rd D.data (i + col * D.rows)
    rw [add_comm]
  · show wr D.data (col * D.rows + i) x = ((wr D.data (i + col * D.rows) x >>= fun d => (.ok { D with data := d } : Res (Dense α)))).map Dense.data
    rw [add_comm]
    cases wr D.data (i + col * D.rows) x <;> rfl

/-! ## Concrete cases -/

/-- The divisor is shorter than the dividend, and zero. -/
example : Rel.divAssign .release Rel.quot ⟨0, 3⟩ ⟨3, 2⟩ ([10, 20, 30, 2, 5, 6] : List Int) = .ok [5, 4, 5, 2, 5, 6] ∧
    Rel.divAssign .debug Rel.quot ⟨0, 3⟩ ⟨3, 2⟩ ([10, 20, 30, 2, 5, 6] : List Int) = .error .assertFail ∧
    Rel.divAssign .release Rel.quot ⟨0, 2⟩ ⟨2, 2⟩ ([10, 20, 2, 0] : List Int) = .error .divZero ∧
    Rel.divAssign .debug Rel.quot ⟨0, 2⟩ ⟨2, 2⟩ ([10, 20, 2, 0] : List Int) = .error .assertFail ∧
    Rel.divAssign .release (fun a c => .ok (if c = 0 then 1000 else a / c)) ⟨0, 2⟩ ⟨2, 2⟩ ([10, 20, 2, 0] : List Int) = .ok [5, 1000, 2, 0] ∧
    Rel.divAssign .release Rel.quot ⟨0, 3⟩ ⟨3, 2⟩ ([10, 20, 30, 2, 5] : List Int) = .error .outOfBounds ∧
    Rel.divScalar .release Rel.quot ⟨1, 2⟩ 5 ([10, 20, 30] : List Int) = .ok [10, 4, 6] ∧
    Rel.divScalar .release Rel.quot ⟨1, 2⟩ 0 ([10, 20, 30] : List Int) = .error .divZero ∧
    Rel.divScalar .debug Rel.quot ⟨1, 2⟩ 0 ([10, 20, 30] : List Int) = .error .assertFail := by decide +kernel

/-- The second summand and the result are too short; the last element is written behind the result. -/
example : Rel.combine .release 1 ⟨0, 2⟩ 10 ⟨2, 1⟩ 100 ⟨3, 1⟩ ([1, 2, 3, 4, 5] : List Int) = .ok [1, 2, 3, 431, 4812] ∧
    Rel.combine .debug 1 ⟨0, 2⟩ 10 ⟨2, 1⟩ 100 ⟨3, 1⟩ ([1, 2, 3, 4, 5] : List Int) = .error .assertFail := by decide +kernel

example : Rel.getBlock .release ⟨7, 5⟩ [0, 2, 5] 1 = .ok ⟨9, 3⟩ ∧ Rel.getBlock .release ⟨7, 5⟩ [0, 2, 5] 2 = .error .outOfBounds ∧
    Rel.getBlock .debug ⟨7, 5⟩ [0, 2, 5] 2 = .error .assertFail ∧ Rel.getBlock .debug ⟨7, 5⟩ [0, 2, 5] (-1) = .error .outOfBounds ∧
    Rel.getBlock .release ⟨7, 5⟩ [3, 2] 0 = .ok ⟨10, -1⟩ ∧ Rel.getBlock .debug ⟨7, 5⟩ [3, 2] 0 = .error .assertFail ∧
    Rel.getColView .release (⟨2, 1, [1, 2]⟩ : Dense Int) 4 = .ok ⟨8, 2⟩ ∧ Rel.getColView .debug (⟨2, 1, [1, 2]⟩ : Dense Int) 4 = .error .assertFail := by
  decide +kernel

/-- The hypotheses of the theorems hold in such cases. -/
example : Rel.divAssign .release Rel.quot ⟨0, 2⟩ ⟨2, 7⟩ ([10, 20, 2, 0] : List Int) = .error .divZero := by
  rw [C148_divAssign ⟨0, 2⟩ ⟨2, 7⟩ [10, 20, 2, 0] (by decide) (by decide)]
  decide +kernel

example : ∃ m', Rel.divAssign .release (fun a c => .ok (a - c)) ⟨0, 2⟩ ⟨2, 2⟩ ([10, 20, 2, 0] : List Int) = .ok m' ∧ m'.length = 4 := by
  obtain ⟨m', h1, h2, -⟩ := (C148_divFloat (fun a c => a - c) ⟨0, 2⟩ ⟨2, 2⟩ ([10, 20, 2, 0] : List Int) (by decide)).1 (by decide)
  exact ⟨m', h1, h2⟩

example : Rel.divScalar .release Rel.quot ⟨1, 2⟩ 0 ([10, 20, 30] : List Int) = .error .divZero :=
  (C148_divScalar (fun a c => a - c) ⟨1, 2⟩ 0 [10, 20, 30] (by decide) (by decide)).1 (by decide)

end Linalg
