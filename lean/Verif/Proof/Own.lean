import Verif.Spec.Own
import Verif.Cpp.Lemmas

/-!
# Heap lemmas for the storage of vectors
-/

namespace Linalg
open Cpp

variable {α : Type}

namespace Heap

theorem block_ok {h : Heap α} {b : Nat} {l : List α} {c : Nat} (hb : h[b]? = some ⟨true, l, c⟩) : h.block b = .ok ⟨true, l, c⟩ := by
  unfold block
  rw [hb]
  rfl

theorem set_self {h : Heap α} {b : Nat} {B : Cells α} (hb : h[b]? = some B) : h.set b B = h := by
  obtain ⟨hl, he⟩ := List.getElem?_eq_some_iff.mp hb
  rw [← he]
  exact List.set_getElem_self hl

theorem get_set {h : Heap α} {b : Nat} {B C : Cells α} (hb : h[b]? = some B) : (h.set b C)[b]? = some C := by
  obtain ⟨hl, _⟩ := List.getElem?_eq_some_iff.mp hb
  rw [List.getElem?_set_self hl]

theorem get_set_ne {h : Heap α} {b d : Nat} {C : Cells α} (hd : d ≠ b) : (h.set b C)[d]? = h[d]? := by
  rw [List.getElem?_set_ne (Ne.symm hd)]

theorem load_ok {h : Heap α} {b : Nat} {l : List α} {c : Nat} (hb : h[b]? = some ⟨true, l, c⟩) (o k : Int) :
    h.load (some (b, o)) k = rd l (o + k) := by
  unfold load
  simp only [block_ok hb, ok_bind]

theorem store_ok {h : Heap α} {b : Nat} {l : List α} {c : Nat} (hb : h[b]? = some ⟨true, l, c⟩) (k : Nat) (hk : k < l.length) (x : α) :
    h.store (some (b, 0)) k x = .ok (h.set b ⟨true, l.set k x, c⟩) := by
  unfold store
  simp only [block_ok hb, ok_bind, Int.zero_add, wr_nat hk]

/-- A loop that overwrites each element of a block once. -/
theorem fillLoop {h : Heap α} {b : Nat} {l : List α} {c : Nat} (hb : h[b]? = some ⟨true, l, c⟩) (g : Nat → α)
    (body : Int → Heap α → Res (Heap α))
    (hbody : ∀ (k : Nat) (y : List α), k < l.length → y.length = l.length → y[k]? = l[k]? →
      body k (h.set b ⟨true, y, c⟩) = .ok (h.set b ⟨true, y.set k (g k), c⟩)) :
    forUp 0 (l.length : Int) h body = .ok (h.set b ⟨true, (List.range l.length).map g, c⟩) := by
  obtain ⟨s, h1, y, rfl, h3, h4, -⟩ := forUp_inv_nat (n := l.length) (f := body)
    (fun k s => ∃ y : List α, s = h.set b ⟨true, y, c⟩ ∧ y.length = l.length ∧ (∀ m, m < k → m < l.length → y[m]? = some (g m)) ∧
      ∀ m, k ≤ m → y[m]? = l[m]?) (s := h)
    ⟨l, (set_self hb).symm, rfl, fun m hm => absurd hm (by omega), fun _ _ => rfl⟩ (by
      rintro k s hk ⟨y, rfl, y1, y2, y3⟩
      refine ⟨_, hbody k y hk y1 (y3 k le_rfl), _, rfl, by rw [List.length_set, y1], ?_, ?_⟩
      · intro m hm hml
        by_cases hmk : m = k
        · subst hmk
          rw [List.getElem?_set_self (by omega)]
        · rw [List.getElem?_set_ne (Ne.symm hmk)]
          exact y2 m (by omega) hml
      · intro m hm
        rw [List.getElem?_set_ne (by omega)]
        exact y3 m (by omega))
  rw [h1]
  congr 3
  congr 1
  apply List.ext_getElem?
  intro m
  by_cases hm : m < l.length
  · rw [h4 m hm hm, List.getElem?_map, List.getElem?_range hm]
    rfl
  · rw [List.getElem?_eq_none (by omega), List.getElem?_eq_none (by simp; omega)]

theorem slice_eq (l : List α) (o n : Nat) (h : o + n ≤ l.length) (g : Nat → α) (hg : ∀ k, k < n → l[o + k]? = some (g k)) :
    (List.range n).map g = (l.drop o).take n := by
  apply List.ext_getElem?
  intro m
  by_cases hm : m < n
  · rw [List.getElem?_map, List.getElem?_range hm, List.getElem?_take_of_lt hm, List.getElem?_drop, hg m hm]
    rfl
  · rw [List.getElem?_eq_none (by simp; omega), List.getElem?_eq_none (by simp; omega)]

/-- Copying from another block. -/
theorem copy_ok [Zero α] {h : Heap α} {b d : Nat} {l r : List α} {c e : Nat} (hb : h[b]? = some ⟨true, l, c⟩) (hd : h[d]? = some ⟨true, r, e⟩)
    (hne : d ≠ b) (o : Nat) (ho : o + l.length ≤ r.length) :
    h.copy (some (d, (o : Int))) l.length (some (b, 0)) = .ok (h.set b ⟨true, (r.drop o).take l.length, c⟩) := by
  unfold copy
  rw [if_neg (by simp [inside, hne])]
  rw [← slice_eq r o l.length ho (fun k => r.getD (o + k) 0) (by
    intro k hk
    rw [List.getD_eq_getElem?_getD, List.getElem?_eq_getElem (by omega)]; rfl)]
  apply fillLoop hb
  intro k y hk hy _
  rw [load_ok (b := d) (l := r) (c := e) (by rw [get_set_ne hne, hd])]
  rw [show ((o : Int) + (k : Int)) = ((o + k : Nat) : Int) by push_cast; rfl, rd_nat (by omega), ok_bind,
    store_ok (get_set hb) k (by omega), List.set_set]
  rw [List.getD_eq_getElem?_getD, List.getElem?_eq_getElem (by omega)]; rfl

/-- Copying a block onto itself. -/
theorem copy_self [Zero α] {h : Heap α} {b : Nat} {l : List α} {c : Nat} (hb : h[b]? = some ⟨true, l, c⟩) :
    h.copy (some (b, 0)) l.length (some (b, 0)) = .ok h := by
  unfold copy
  rw [if_neg (by simp [inside])]
  have := fillLoop hb (fun k => l.getD k 0) (fun k h => do
    let x ← h.load (some (b, 0)) k
    h.store (some (b, 0)) k x) (by
    intro k y hk hy hyk
    rw [load_ok (get_set hb), Int.zero_add, rd_nat (by omega), ok_bind, store_ok (get_set hb) k (by omega), List.set_set]
    have : y[k]'(by omega) = l.getD k 0 := by
      rw [List.getD_eq_getElem?_getD, ← hyk, List.getElem?_eq_getElem (by omega)]; rfl
    rw [this])
  rw [this, slice_eq l 0 l.length (by omega) _ (by
    intro k hk
    rw [Nat.zero_add, List.getD_eq_getElem?_getD, List.getElem?_eq_getElem hk]; rfl)]
  rw [List.drop_zero, List.take_length, set_self hb]

/-- Copying nothing. -/
theorem copy_nil (h : Heap α) (src : Ptr) (dst : Ptr) : h.copy src 0 dst = .ok h := by
  unfold copy
  have : inside src 0 dst = false := by
    unfold inside
    split
    · simp only [add_zero, decide_eq_false_iff_not]; omega
    · rfl
  rw [this, if_neg (by simp), forUp_nil le_rfl]

/-- Copying from a position of the own block that has been cut off. -/
theorem copy_cut {h : Heap α} {b : Nat} {l : List α} {c : Nat} (hb : h[b]? = some ⟨true, l, c⟩) (o : Nat) (ho : 0 < o) (hl : 0 < l.length) :
    h.copy (some (b, (o : Int))) l.length (some (b, 0)) = .error .outOfBounds := by
  unfold copy
  rw [if_neg (by simp [inside])]
  apply forUp_fails (fun _ s => ∃ y : List α, s = h.set b ⟨true, y, c⟩ ∧ y.length = l.length) (fun k => (o : Int) + k < l.length)
  · exact ⟨l, (set_self hb).symm, rfl⟩
  · rintro k s k0 k1 ⟨y, rfl, hy⟩ hk
    obtain ⟨k, rfl⟩ := Int.eq_ofNat_of_zero_le k0
    rw [load_ok (get_set hb), show ((o : Int) + (k : Int)) = ((o + k : Nat) : Int) by push_cast; rfl, rd_nat (by omega), ok_bind,
      store_ok (get_set hb) k (by omega), List.set_set]
    exact ⟨_, rfl, _, rfl, by rw [List.length_set, hy]⟩
  · rintro k s k0 k1 ⟨y, rfl, hy⟩ hk
    rw [load_ok (get_set hb), rd_oob (by right; omega)]
    rfl
  · exact ⟨(l.length : Int) - 1, by omega, by omega, by omega⟩

/-- `resize`: the elements, and what stays. -/
theorem resize_ok (grow : Nat → Nat → Nat) {h : Heap α} {b : Nat} {l : List α} {c : Nat} (hb : h[b]? = some ⟨true, l, c⟩) (n : Nat) (x : α) :
    ∃ h' b' c', h.resize grow b n x = .ok (h', b') ∧ h'[b']? = some ⟨true, Cpp.resize l n x, c'⟩ ∧ (∀ d, d ≠ b → d < h.length → h'[d]? = h[d]?) ∧
      (b' = b ∨ b' = h.length) ∧ h.length ≤ h'.length ∧ (n ≤ l.length → b' = b) := by
  unfold resize
  rw [if_neg (by omega), block_ok hb, ok_bind]
  simp only [Int.toNat_natCast]
  by_cases hc : n ≤ c ∨ n ≤ l.length
  · rw [if_pos hc]
    exact ⟨_, _, _, rfl, get_set hb, fun d hd _ => get_set_ne hd, Or.inl rfl, by simp, fun _ => rfl⟩
  · rw [if_neg hc]
    refine ⟨_, _, grow c n, rfl, ?_, ?_, Or.inr rfl, by simp [free], fun hn => absurd (Or.inr hn) hc⟩
    · rw [List.getElem?_append_right (by simp [free])]
      simp [free]
    · intro d hd hl
      rw [List.getElem?_append_left (by simpa [free] using hl)]
      exact get_set_ne hd

theorem resize_same (l : List α) (x : α) : Cpp.resize l l.length x = l := by simp [Cpp.resize]

theorem alloc_new (h : Heap α) (l : List α) : (h.alloc l).1[(h.alloc l).2]? = some ⟨true, l, l.length⟩ := by
  unfold alloc
  rw [List.getElem?_append_right le_rfl]
  simp

theorem alloc_old (h : Heap α) (l : List α) {d : Nat} (hd : d < h.length) : (h.alloc l).1[d]? = h[d]? := by
  unfold alloc
  rw [List.getElem?_append_left hd]

end Heap

/-! ## What the vectors of a store hold -/

/-- The view of a vector shows the elements of its storage. -/
def VecObj.Shows (o : VecObj) (l : List α) : Prop :=
  o.view = ⟨some (o.data, 0), l.length⟩ ∨ (o.view = ⟨none, 0⟩ ∧ l = [])

/-- Every vector holds the elements `vs` gives it, in storage of its own. -/
structure Store.Holds (s : Store α) (vs : List (Option (List α))) : Prop where
  len : s.vecs.length = vs.length
  vec : ∀ (i : Nat) (o : VecObj), s.vecs[i]? = some (some o) →
    ∃ l c, s.heap[o.data]? = some ⟨true, l, c⟩ ∧ vs[i]? = some (some l) ∧ o.Shows l
  gone : ∀ (i : Nat), s.vecs[i]? = some none → vs[i]? = some none
  apart : ∀ (i j : Nat) (o o' : VecObj), i ≠ j → s.vecs[i]? = some (some o) → s.vecs[j]? = some (some o') → o.data ≠ o'.data

namespace Store.Holds
variable {s : Store α} {vs : List (Option (List α))}

theorem data_lt (h : s.Holds vs) {i : Nat} {o : VecObj} (ho : s.vecs[i]? = some (some o)) : o.data < s.heap.length := by
  obtain ⟨l, c, h1, -, -⟩ := h.vec i o ho
  exact (List.getElem?_eq_some_iff.mp h1).1

/-- Both models find a vector, or neither. -/
theorem find (h : s.Holds vs) (i : Nat) :
    (s.vec i = .error .undefinedBehaviour ∧ Vals.vec vs i = .error .undefinedBehaviour) ∨
      ∃ o l c, s.vec i = .ok o ∧ Vals.vec vs i = .ok l ∧ s.vecs[i]? = some (some o) ∧ vs[i]? = some (some l) ∧
        s.heap[o.data]? = some ⟨true, l, c⟩ ∧ o.Shows l := by
  by_cases hi : i < s.vecs.length
  · rcases ho : s.vecs[i] with _ | o
    · have ho' : s.vecs[i]? = some none := by rw [List.getElem?_eq_getElem hi, ho]
      left
      constructor
      · unfold Store.vec; rw [ho']
      · unfold Vals.vec; rw [h.gone i ho']
    · have ho' : s.vecs[i]? = some (some o) := by rw [List.getElem?_eq_getElem hi, ho]
      obtain ⟨l, c, h1, h2, h3⟩ := h.vec i o ho'
      right
      refine ⟨o, l, c, ?_, ?_, ho', h2, h1, h3⟩
      · unfold Store.vec; rw [ho']
      · unfold Vals.vec; rw [h2]
  · left
    constructor
    · unfold Store.vec; rw [List.getElem?_eq_none (by omega)]
    · unfold Vals.vec; rw [List.getElem?_eq_none (by rw [← h.len]; omega)]

/-- A new vector. -/
theorem push (h : s.Holds vs) {h' : Heap α} {o : VecObj} {l : List α} {c : Nat} (hb : h'[o.data]? = some ⟨true, l, c⟩) (hs : o.Shows l)
    (hnew : s.heap.length ≤ o.data) (hold : ∀ d, d < s.heap.length → h'[d]? = s.heap[d]?) :
    Store.Holds ⟨h', s.vecs ++ [some o]⟩ (vs ++ [some l]) := by
  have key : ∀ i x, (s.vecs ++ [some o])[i]? = some x → (i < s.vecs.length ∧ s.vecs[i]? = some x) ∨ (i = s.vecs.length ∧ x = some o) := by
    intro i x hx
    by_cases hi : i < s.vecs.length
    · rw [List.getElem?_append_left hi] at hx; exact Or.inl ⟨hi, hx⟩
    · rw [List.getElem?_append_right (by omega)] at hx
      right
      obtain ⟨h1, h2⟩ := List.getElem?_eq_some_iff.mp hx
      simp at h1 h2
      exact ⟨by omega, h2.symm⟩
  refine ⟨by simp [h.len], ?_, ?_, ?_⟩
  · intro i o' ho'
    rcases key i _ ho' with ⟨hi, hx⟩ | ⟨hi, hx⟩
    · obtain ⟨l', c', h1, h2, h3⟩ := h.vec i o' hx
      refine ⟨l', c', ?_, ?_, h3⟩
      · show h'[o'.data]? = _
        rw [hold _ (h.data_lt hx), h1]
      · rw [List.getElem?_append_left (by rw [← h.len]; exact hi), h2]
    · cases hx
      refine ⟨l, c, hb, ?_, hs⟩
      rw [List.getElem?_append_right (by rw [← h.len]; omega), hi, h.len]
      simp
  · intro i hx
    rcases key i _ hx with ⟨hi, hx⟩ | ⟨hi, hx⟩
    · rw [List.getElem?_append_left (by rw [← h.len]; exact hi), h.gone i hx]
    · cases hx
  · intro i j a a' hij hx hy
    rcases key i _ hx with ⟨hi, hx⟩ | ⟨hi, hx⟩ <;> rcases key j _ hy with ⟨hj, hy⟩ | ⟨hj, hy⟩
    · exact h.apart i j a a' hij hx hy
    · cases hy
      have := h.data_lt hx
      omega
    · cases hx
      have := h.data_lt hy
      omega
    · omega

/-- A vector that gets new elements, in its storage or in new storage. -/
theorem setVec (h : s.Holds vs) {h' : Heap α} {i : Nat} {o o' : VecObj} (ho : s.vecs[i]? = some (some o)) {l : List α} {c : Nat}
    (hb : h'[o'.data]? = some ⟨true, l, c⟩) (hs : o'.Shows l) (hd : o'.data = o.data ∨ s.heap.length ≤ o'.data)
    (hold : ∀ d, d ≠ o.data → d < s.heap.length → h'[d]? = s.heap[d]?) :
    Store.Holds ⟨h', s.vecs.set i (some o')⟩ (vs.set i (some l)) := by
  have hi : i < s.vecs.length := (List.getElem?_eq_some_iff.mp ho).1
  have hi' : i < vs.length := by rw [← h.len]; exact hi
  refine ⟨by simp [h.len], ?_, ?_, ?_⟩
  · intro j a ha
    by_cases hj : j = i
    · subst hj
      change (s.vecs.set j (some o'))[j]? = _ at ha
      rw [List.getElem?_set_self hi] at ha
      cases ha
      exact ⟨l, c, hb, by rw [List.getElem?_set_self hi'], hs⟩
    · change (s.vecs.set i (some o'))[j]? = _ at ha
      rw [List.getElem?_set_ne (Ne.symm hj)] at ha
      obtain ⟨l', c', h1, h2, h3⟩ := h.vec j a ha
      refine ⟨l', c', ?_, by rw [List.getElem?_set_ne (Ne.symm hj), h2], h3⟩
      change h'[a.data]? = _
      rw [hold a.data (h.apart j i a o hj ha ho) (h.data_lt ha), h1]
  · intro j ha
    by_cases hj : j = i
    · subst hj
      change (s.vecs.set j (some o'))[j]? = _ at ha
      rw [List.getElem?_set_self hi] at ha
      cases ha
    · change (s.vecs.set i (some o'))[j]? = _ at ha
      rw [List.getElem?_set_ne (Ne.symm hj)] at ha
      rw [List.getElem?_set_ne (Ne.symm hj), h.gone j ha]
  · have one : ∀ j a, j ≠ i → s.vecs[j]? = some (some a) → a.data ≠ o'.data := by
      intro j a hj ha
      have h1 := h.apart j i a o hj ha ho
      have h2 := h.data_lt ha
      rcases hd with hd | hd
      · rw [hd]; exact h1
      · omega
    intro j k a a' hjk ha ha'
    change (s.vecs.set i (some o'))[j]? = _ at ha
    change (s.vecs.set i (some o'))[k]? = _ at ha'
    by_cases hj : j = i
    · subst hj
      rw [List.getElem?_set_self hi] at ha
      rw [List.getElem?_set_ne hjk] at ha'
      cases ha
      exact Ne.symm (one k a' (Ne.symm hjk) ha')
    · rw [List.getElem?_set_ne (Ne.symm hj)] at ha
      by_cases hk : k = i
      · subst hk
        rw [List.getElem?_set_self hi] at ha'
        cases ha'
        exact one j a hj ha
      · rw [List.getElem?_set_ne (Ne.symm hk)] at ha'
        exact h.apart j k a a' hjk ha ha'

/-- A vector whose elements are overwritten in place. -/
theorem write (h : s.Holds vs) {i : Nat} {o : VecObj} (ho : s.vecs[i]? = some (some o)) {l : List α} {c : Nat} {r : List α}
    (hb : s.heap[o.data]? = some ⟨true, l, c⟩) (hs : o.Shows l) (hr : r.length = l.length) :
    Store.Holds ⟨s.heap.set o.data ⟨true, r, c⟩, s.vecs⟩ (vs.set i (some r)) := by
  have hs' : o.Shows r := by
    rcases hs with hs | ⟨h1, h2⟩
    · left; rw [hs, hr]
    · right; refine ⟨h1, ?_⟩
      rw [h2] at hr
      exact List.length_eq_zero_iff.mp hr
  have := h.setVec ho (h' := s.heap.set o.data ⟨true, r, c⟩) (o' := o) (Heap.get_set hb) hs' (Or.inl rfl) (fun d hd _ => Heap.get_set_ne hd)
  have e : s.vecs.set i (some o) = s.vecs := by
    obtain ⟨hl, he⟩ := List.getElem?_eq_some_iff.mp ho
    rw [← he]
    exact List.set_getElem_self hl
  rw [e] at this
  exact this

end Store.Holds
end Linalg
