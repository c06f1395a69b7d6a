import Verif.Proof.Own
import Verif.Proof.Vec

/-!
# Vectors behave as values (C90), views follow their vector (C91)
-/

namespace Linalg
open Cpp

variable {α : Type}

namespace Own

theorem setData_ok {h : Heap α} {b : Nat} {l : List α} {c : Nat} (hb : h[b]? = some ⟨true, l, c⟩) (v : ViewObj) :
    VecObj.setData h ⟨v, b⟩ = .ok ⟨⟨some (b, 0), l.length⟩, b⟩ := by
  unfold VecObj.setData
  simp only [Heap.block_ok hb, ok_bind]

theorem resize_nil (n : Nat) (x : α) : Cpp.resize ([] : List α) n x = List.replicate n x := by simp [Cpp.resize]

theorem length_resize (l : List α) (n : Nat) (x : α) : (Cpp.resize l n x).length = n := by simp [Cpp.resize]; omega

theorem Shows.size {o : VecObj} {l : List α} (hs : o.Shows l) : o.view.size = l.length := by
  rcases hs with hs | ⟨hs, hl⟩
  · rw [hs]
  · rw [hs, hl]; rfl

theorem Shows.ptr {o : VecObj} {l : List α} (hs : o.Shows l) (h : 0 < l.length) : o.view.ptr = some (o.data, 0) := by
  rcases hs with hs | ⟨hs, hl⟩
  · rw [hs]
  · rw [hl] at h; simp at h

/-- Two vectors that exchange their storage. -/
theorem swap_holds {s : Store α} {vs : List (Option (List α))} (h : s.Holds vs) {i j : Nat} {o p o' p' : VecObj} {l r : List α}
    (ho : s.vecs[i]? = some (some o)) (hl : vs[i]? = some (some l)) (hp : s.vecs[j]? = some (some p)) (hr : vs[j]? = some (some r))
    (do' : o'.data = p.data) (so' : o'.Shows r) (dp' : p'.data = o.data) (sp' : p'.Shows l) :
    Store.Holds ⟨s.heap, (s.vecs.set j (some p')).set i (some o')⟩ ((vs.set j (some l)).set i (some r)) := by
  have hi : i < s.vecs.length := (List.getElem?_eq_some_iff.mp ho).1
  have hj : j < s.vecs.length := (List.getElem?_eq_some_iff.mp hp).1
  have hlen := h.len
  obtain ⟨l1, c1, a1, a2, -⟩ := h.vec i o ho
  obtain ⟨r1, d1, b1, b2, -⟩ := h.vec j p hp
  obtain rfl : l1 = l := by rw [hl] at a2; simpa using a2.symm
  obtain rfl : r1 = r := by rw [hr] at b2; simpa using b2.symm
  have key : ∀ (k : Nat) (x : Option VecObj), ((s.vecs.set j (some p')).set i (some o'))[k]? = some x →
      (k = i ∧ x = some o') ∨ (k ≠ i ∧ k = j ∧ x = some p') ∨ (k ≠ i ∧ k ≠ j ∧ s.vecs[k]? = some x) := by
    intro k x hx
    by_cases hk : k = i
    · subst hk
      rw [List.getElem?_set_self (by simpa using hi)] at hx
      exact Or.inl ⟨rfl, (Option.some.inj hx).symm⟩
    · rw [List.getElem?_set_ne (Ne.symm hk)] at hx
      by_cases hkj : k = j
      · subst hkj
        rw [List.getElem?_set_self hj] at hx
        exact Or.inr (Or.inl ⟨hk, rfl, (Option.some.inj hx).symm⟩)
      · rw [List.getElem?_set_ne (Ne.symm hkj)] at hx
        exact Or.inr (Or.inr ⟨hk, hkj, hx⟩)
  constructor
  · simp [hlen]
  · intro k a ha
    rcases key k _ ha with ⟨hk, hx⟩ | ⟨hk, hkj, hx⟩ | ⟨hk, hkj, hx⟩
    · cases hx
      subst hk
      exact ⟨r1, d1, by rw [← do'] at b1; exact b1, by rw [List.getElem?_set_self (by simp; omega)], so'⟩
    · cases hx
      subst hkj
      exact ⟨l1, c1, by rw [← dp'] at a1; exact a1, by rw [List.getElem?_set_ne (Ne.symm hk), List.getElem?_set_self (by omega)], sp'⟩
    · obtain ⟨l', c', g1, g2, g3⟩ := h.vec k a hx
      exact ⟨l', c', g1, by rw [List.getElem?_set_ne (Ne.symm hk), List.getElem?_set_ne (Ne.symm hkj), g2], g3⟩
  · intro k ha
    rcases key k _ ha with ⟨hk, hx⟩ | ⟨hk, hkj, hx⟩ | ⟨hk, hkj, hx⟩
    · cases hx
    · cases hx
    · rw [List.getElem?_set_ne (Ne.symm hk), List.getElem?_set_ne (Ne.symm hkj), h.gone k hx]
  · intro k m a a' hkm ha ha'
    rcases key k _ ha with ⟨hk, hx⟩ | ⟨hk, hkj, hx⟩ | ⟨hk, hkj, hx⟩ <;> rcases key m _ ha' with ⟨hm, hy⟩ | ⟨hm, hmj, hy⟩ | ⟨hm, hmj, hy⟩
    · omega
    · cases hx
      cases hy
      rw [do', dp']
      exact h.apart j i p o (by omega) hp ho
    · cases hx
      rw [do']
      exact h.apart j m p a' (by omega) hp hy
    · cases hx
      cases hy
      rw [do', dp']
      exact h.apart i j o p (by omega) ho hp
    · omega
    · cases hx
      rw [dp']
      exact h.apart i m o a' (by omega) ho hy
    · cases hy
      rw [do']
      exact h.apart k j a p (by omega) hx hp
    · cases hy
      rw [dp']
      exact h.apart k i a o (by omega) hx ho
    · exact h.apart k m a a' hkm hx hy

/-- A part of a vector, as both models see it. -/
theorem sub_ok {o : VecObj} {l : List α} (hs : o.Shows l) (off n : Int) :
    (∃ e, o.view.sub off n = .error e ∧ Vals.slice l off n = .error e) ∨
      ∃ (a m : Nat), off = a ∧ n = m ∧ a + m ≤ l.length ∧ Vals.slice l off n = .ok ((l.drop a).take m) ∧
        ((o.view.sub off n = .ok ⟨some (o.data, (a : Int)), m⟩) ∨ (m = 0 ∧ o.view.sub off n = .ok ⟨none, 0⟩)) := by
  have hsz : o.view.size = l.length := by
    rcases hs with hs | ⟨hs, hl⟩
    · rw [hs]
    · rw [hs, hl]; rfl
  unfold ViewObj.sub Vals.slice
  rw [hsz]
  by_cases hn : 0 ≤ n
  · rw [cassert_true hn, ok_bind, if_neg (show ¬ n < 0 by omega)]
    by_cases hr : 0 ≤ off ∧ off + n ≤ l.length
    · rw [if_pos hr, if_pos hr]
      right
      refine ⟨off.toNat, n.toNat, by omega, by omega, by omega, rfl, ?_⟩
      rcases hs with hs | ⟨hs, hl⟩
      · left
        rw [hs]
        simp only [Option.map_some, Int.zero_add]
        congr 3
        · congr 2; omega
        · omega
      · right
        rw [hl] at hr
        have h0 : n = 0 := by simp at hr; omega
        rw [hs, h0]
        exact ⟨rfl, rfl⟩
    · rw [if_neg hr, if_neg hr]
      exact Or.inl ⟨_, rfl, rfl⟩
  · rw [cassert_false hn, if_pos (show n < 0 by omega)]
    exact Or.inl ⟨_, rfl, rfl⟩

/-- Every statement does to the storage what it does to the values. -/
theorem step_ok [Zero α] (grow : Nat → Nat → Nat) {s : Store α} {vs : List (Option (List α))} (h : s.Holds vs) (op : Stmt α) :
    (∃ e, s.step grow op = .error e ∧ Vals.step vs op = .error e) ∨
      ∃ s' vs', s.step grow op = .ok s' ∧ Vals.step vs op = .ok vs' ∧ s'.Holds vs' := by
  -- the block of a vector before its constructor runs
  have hinit : (VecObj.init s.heap).1[(VecObj.init s.heap).2.data]? = some ⟨true, [], 0⟩ := Heap.alloc_new s.heap []
  have hinitd : (VecObj.init s.heap).2.data = s.heap.length := rfl
  have hinitl : (VecObj.init s.heap).1.length = s.heap.length + 1 := by simp [VecObj.init, Heap.alloc]
  have hinito : ∀ d, d < s.heap.length → (VecObj.init s.heap).1[d]? = s.heap[d]? := fun d hd => Heap.alloc_old s.heap [] hd
  have hinitv : (VecObj.init s.heap).2.view = ⟨none, 0⟩ := rfl
  cases op with
  | make n x =>
    simp only [Store.step, Vals.step, VecObj.ofVal]
    by_cases hn : n < 0
    · left
      refine ⟨.threw, ?_, by rw [if_pos hn]⟩
      unfold Heap.resize
      rw [if_pos hn]
      rfl
    · right
      obtain ⟨n, rfl⟩ := Int.eq_ofNat_of_zero_le (not_lt.mp hn)
      obtain ⟨h', b', c', h1, h2, h3, h4, -, -⟩ := Heap.resize_ok grow hinit n x
      rw [resize_nil] at h2
      rw [h1, ok_bind]
      simp only [setData_ok h2, ok_bind]
      refine ⟨_, _, rfl, by rw [if_neg hn], ?_⟩
      rw [Int.toNat_natCast]
      refine h.push h2 (Or.inl rfl) ?_ ?_
      · show s.heap.length ≤ b'
        rcases h4 with h4 | h4 <;> omega
      · intro d hd
        rw [h3 d (by omega) (by omega), hinito d hd]
  | std l =>
    right
    simp only [Store.step, Vals.step, VecObj.ofStd]
    rw [setData_ok (Heap.alloc_new s.heap l), ok_bind]
    exact ⟨_, _, rfl, rfl, h.push (Heap.alloc_new s.heap l) (Or.inl rfl) le_rfl (fun d hd => Heap.alloc_old s.heap l hd)⟩
  | ofView i off n =>
    simp only [Store.step, Vals.step]
    rcases h.find i with ⟨e1, e2⟩ | ⟨o, l, c, e1, e2, e3, e4, e5, e6⟩
    · exact Or.inl ⟨_, by rw [e1]; rfl, by rw [e2]; rfl⟩
    · rw [e1, e2, ok_bind, ok_bind]
      rcases sub_ok e6 off n with ⟨e, f1, f2⟩ | ⟨a, m, rfl, rfl, f1, f2, f3⟩
      · exact Or.inl ⟨_, by rw [f1]; rfl, by rw [f2]; rfl⟩
      · right
        obtain ⟨h', b', c', h1, h2, h3, h4, -, -⟩ := Heap.resize_ok grow hinit m (0 : α)
        have hlt := h.data_lt e3
        have hne : o.data ≠ b' := by rcases h4 with h4 | h4 <;> omega
        have ho' : h'[o.data]? = some ⟨true, l, c⟩ := by rw [h3 o.data (by omega) (by omega), hinito _ hlt, e5]
        have hres : VecObj.ofView grow s.heap ⟨some (o.data, (a : Int)), m⟩
              = .ok (h'.set b' ⟨true, (l.drop a).take m, c'⟩, ⟨⟨some (b', 0), ((l.drop a).take m).length⟩, b'⟩) := by
          unfold VecObj.ofView
          dsimp only
          rw [h1, ok_bind]
          have := Heap.copy_ok h2 ho' hne a (by rw [length_resize]; exact f1)
          rw [length_resize] at this
          simp only [this, ok_bind, setData_ok (Heap.get_set h2)]
        have hres0 : m = 0 → VecObj.ofView grow s.heap ⟨none, 0⟩
              = .ok (h'.set b' ⟨true, (l.drop a).take m, c'⟩, ⟨⟨some (b', 0), ((l.drop a).take m).length⟩, b'⟩) := by
          intro hm
          subst hm
          unfold VecObj.ofView
          dsimp only
          have h1' : (VecObj.init s.heap).1.resize grow (VecObj.init s.heap).2.data 0 (0 : α) = .ok (h', b') := h1
          have h2' : h'[b']? = some ⟨true, [], c'⟩ := by rw [h2, resize_nil]; rfl
          rw [h1', ok_bind]
          simp only [Heap.copy_nil, ok_bind, setData_ok h2', List.take_zero, Heap.set_self h2']
        refine ⟨⟨h'.set b' ⟨true, (l.drop a).take m, c'⟩, s.vecs ++ [some ⟨⟨some (b', 0), ((l.drop a).take m).length⟩, b'⟩]⟩, _, ?_,
          by rw [f2]; rfl, ?_⟩
        · rcases f3 with f3 | ⟨hm, f3⟩
          · rw [f3, ok_bind, hres]; rfl
          · rw [f3, ok_bind, hres0 hm]; rfl
        · refine h.push (Heap.get_set h2) (Or.inl rfl) ?_ ?_
          · show s.heap.length ≤ b'
            rcases h4 with h4 | h4 <;> omega
          · intro d hd
            rw [Heap.get_set_ne (by rcases h4 with h4 | h4 <;> omega), h3 d (by omega) (by omega), hinito d hd]
  | copy i =>
    simp only [Store.step, Vals.step]
    rcases h.find i with ⟨e1, e2⟩ | ⟨o, l, c, e1, e2, e3, e4, e5, e6⟩
    · exact Or.inl ⟨_, by rw [e1]; rfl, by rw [e2]; rfl⟩
    · right
      rw [e1, e2, ok_bind, ok_bind]
      unfold VecObj.copy
      rw [Heap.block_ok e5, ok_bind]
      dsimp only
      rw [setData_ok (Heap.alloc_new s.heap l), ok_bind]
      exact ⟨_, _, rfl, rfl, h.push (Heap.alloc_new s.heap l) (Or.inl rfl) le_rfl (fun d hd => Heap.alloc_old s.heap l hd)⟩
  | move i =>
    simp only [Store.step, Vals.step]
    rcases h.find i with ⟨e1, e2⟩ | ⟨o, l, c, e1, e2, e3, e4, e5, e6⟩
    · exact Or.inl ⟨_, by rw [e1]; rfl, by rw [e2]; rfl⟩
    · right
      rw [e1, e2, ok_bind, ok_bind]
      have ho' : (VecObj.init s.heap).1[o.data]? = some ⟨true, l, c⟩ := by rw [hinito _ (h.data_lt e3), e5]
      unfold VecObj.move VecObj.swap
      dsimp only
      rw [setData_ok ho', ok_bind]
      refine ⟨_, _, rfl, rfl, ?_⟩
      -- first the old one gets the new empty storage, then the new one is there
      have hi : i < s.vecs.length := (List.getElem?_eq_some_iff.mp e3).1
      have hi' : i < vs.length := by rw [← h.len]; exact hi
      have key : ∀ (j : Nat) (x : Option VecObj), (s.vecs.set i (some ⟨⟨none, 0⟩, s.heap.length⟩) ++ [some ⟨⟨some (o.data, 0), (l.length : Int)⟩, o.data⟩])[j]? = some x →
          (j = i ∧ x = some ⟨⟨none, 0⟩, s.heap.length⟩) ∨ (j ≠ i ∧ j < s.vecs.length ∧ s.vecs[j]? = some x) ∨
            (j = s.vecs.length ∧ x = some ⟨⟨some (o.data, 0), (l.length : Int)⟩, o.data⟩) := by
        intro j x hx
        by_cases hj : j < s.vecs.length
        · rw [List.getElem?_append_left (by simpa using hj)] at hx
          by_cases hji : j = i
          · subst hji
            rw [List.getElem?_set_self hi] at hx
            exact Or.inl ⟨rfl, (Option.some.inj hx).symm⟩
          · rw [List.getElem?_set_ne (Ne.symm hji)] at hx
            exact Or.inr (Or.inl ⟨hji, hj, hx⟩)
        · rw [List.getElem?_append_right (by simp; omega)] at hx
          obtain ⟨g1, g2⟩ := List.getElem?_eq_some_iff.mp hx
          simp at g1 g2
          exact Or.inr (Or.inr ⟨by omega, g2.symm⟩)
      constructor
      · simp [h.len]
      · intro j a ha
        rcases key j _ ha with ⟨hj, hx⟩ | ⟨hj, hjl, hx⟩ | ⟨hj, hx⟩
        · cases hx
          subst hj
          exact ⟨[], 0, hinit, by rw [List.getElem?_append_left (by simpa using hi'), List.getElem?_set_self hi'], Or.inr ⟨rfl, rfl⟩⟩
        · obtain ⟨l', c', g1, g2, g3⟩ := h.vec j a hx
          refine ⟨l', c', ?_, ?_, g3⟩
          · show (VecObj.init s.heap).1[a.data]? = _
            rw [hinito _ (h.data_lt hx), g1]
          · rw [List.getElem?_append_left (by rw [List.length_set, ← h.len]; exact hjl), List.getElem?_set_ne (Ne.symm hj), g2]
        · cases hx
          refine ⟨l, c, ho', ?_, Or.inl rfl⟩
          rw [List.getElem?_append_right (by rw [List.length_set, ← h.len]; omega), hj, h.len]
          simp
      · intro j ha
        rcases key j _ ha with ⟨hj, hx⟩ | ⟨hj, hjl, hx⟩ | ⟨hj, hx⟩
        · cases hx
        · rw [List.getElem?_append_left (by rw [List.length_set, ← h.len]; exact hjl), List.getElem?_set_ne (Ne.symm hj), h.gone j hx]
        · cases hx
      · intro j k a a' hjk ha ha'
        have hod := h.data_lt e3
        rcases key j _ ha with ⟨hj, hx⟩ | ⟨hj, hjl, hx⟩ | ⟨hj, hx⟩ <;> rcases key k _ ha' with ⟨hk, hy⟩ | ⟨hk, hkl, hy⟩ | ⟨hk, hy⟩
        · omega
        · cases hx
          have := h.data_lt hy
          show s.heap.length ≠ a'.data
          omega
        · cases hx
          cases hy
          show s.heap.length ≠ o.data
          omega
        · cases hy
          have := h.data_lt hx
          show a.data ≠ s.heap.length
          omega
        · exact h.apart j k a a' hjk hx hy
        · cases hy
          exact h.apart j i a o hj hx e3
        · cases hx
          cases hy
          show o.data ≠ s.heap.length
          omega
        · cases hx
          exact Ne.symm (h.apart k i a' o hk hy e3)
        · omega
  | setSize i n x =>
    simp only [Store.step, Vals.step]
    rcases h.find i with ⟨e1, e2⟩ | ⟨o, l, c, e1, e2, e3, e4, e5, e6⟩
    · exact Or.inl ⟨_, by rw [e1]; rfl, by rw [e2]; rfl⟩
    · rw [e1, e2, ok_bind, ok_bind]
      have hsz : o.view.size = l.length := by
        rcases e6 with hs | ⟨hs, hl⟩
        · rw [hs]
        · rw [hs, hl]; rfl
      unfold VecObj.setSize
      rw [hsz]
      by_cases hn : n < 0
      · left
        rw [if_pos (by omega), cassert_false (by omega), if_pos hn]
        exact ⟨_, rfl, rfl⟩
      · right
        rw [if_neg hn]
        obtain ⟨n, rfl⟩ := Int.eq_ofNat_of_zero_le (not_lt.mp hn)
        by_cases he : (n : Int) ≠ l.length
        · rw [if_pos he, cassert_true (by omega), ok_bind]
          obtain ⟨h', b', c', h1, h2, h3, h4, -, -⟩ := Heap.resize_ok grow e5 n x
          rw [h1, ok_bind]
          dsimp only
          rw [setData_ok h2]
          exact ⟨_, _, rfl, rfl, h.setVec e3 h2 (Or.inl rfl) (by rcases h4 with h4 | h4; exact Or.inl h4; exact Or.inr (by show _ ≤ b'; omega)) h3⟩
        · rw [if_neg he]
          refine ⟨_, _, rfl, rfl, ?_⟩
          have hnl : n = l.length := by omega
          have : l.take (n : Int).toNat ++ List.replicate ((n : Int).toNat - l.length) x = l := by
            rw [Int.toNat_natCast, hnl]; simp
          rw [this]
          exact h.setVec e3 e5 e6 (Or.inl rfl) (fun _ _ _ => rfl)
  | assign i j =>
    simp only [Store.step, Vals.step]
    rcases h.find i with ⟨e1, e2⟩ | ⟨o, l, c, e1, e2, e3, e4, e5, e6⟩
    · exact Or.inl ⟨_, by rw [e1]; rfl, by rw [e2]; rfl⟩
    rcases h.find j with ⟨f1, f2⟩ | ⟨p, r, d, f1, f2, f3, f4, f5, f6⟩
    · exact Or.inl ⟨_, by rw [e1, f1]; rfl, by rw [e2, f2]; rfl⟩
    rw [e1, e2, f1, f2, ok_bind, ok_bind, ok_bind, ok_bind]
    right
    have hsz : p.view.size = r.length := by
      rcases f6 with hs | ⟨hs, hl⟩
      · rw [hs]
      · rw [hs, hl]; rfl
    by_cases hij : i = j
    · subst hij
      rw [if_pos rfl]
      obtain rfl : o = p := by rw [e3] at f3; simpa using f3
      obtain rfl : l = r := by rw [e4] at f4; simpa using f4
      obtain ⟨h', b', c', h1, h2, h3, h4, -, h5⟩ := Heap.resize_ok grow e5 l.length (0 : α)
      rw [Heap.resize_same] at h2
      unfold VecObj.assignSelf
      rw [hsz, h1, ok_bind]
      dsimp only
      rw [Heap.block_ok h2, ok_bind]
      dsimp only
      rw [Heap.copy_self h2, ok_bind, setData_ok h2]
      exact ⟨_, _, rfl, rfl, h.setVec e3 h2 (Or.inl rfl) (by rcases h4 with h4 | h4; exact Or.inl h4; exact Or.inr (by show _ ≤ b'; omega)) h3⟩
    · rw [if_neg hij]
      obtain ⟨h', b', c', h1, h2, h3, h4, -, h5⟩ := Heap.resize_ok grow e5 r.length (0 : α)
      have hpo : p.data ≠ o.data := h.apart j i p o (Ne.symm hij) f3 e3
      have hplt := h.data_lt f3
      have hpb : p.data ≠ b' := by rcases h4 with h4 | h4; rw [h4]; exact hpo; omega
      have hp' : h'[p.data]? = some ⟨true, r, d⟩ := by rw [h3 _ hpo hplt, f5]
      have hc := Heap.copy_ok h2 hp' hpb 0 (by rw [length_resize]; omega)
      rw [length_resize, List.drop_zero, List.take_length] at hc
      unfold VecObj.assign
      rw [hsz, h1, ok_bind]
      dsimp only
      rw [Heap.block_ok hp', ok_bind]
      dsimp only
      have hc' : h'.copy (some (p.data, 0)) r.length (some (b', 0)) = .ok (h'.set b' ⟨true, r, c'⟩) := hc
      rw [hc', ok_bind, setData_ok (Heap.get_set h2)]
      refine ⟨_, _, rfl, rfl, h.setVec e3 (Heap.get_set h2) (Or.inl rfl) (by rcases h4 with h4 | h4; exact Or.inl h4; exact Or.inr (by show _ ≤ b'; omega)) ?_⟩
      intro q hq hql
      rw [Heap.get_set_ne (by rcases h4 with h4 | h4; rw [h4]; exact hq; omega), h3 q hq hql]
  | assignView i j off n =>
    simp only [Store.step, Vals.step]
    rcases h.find i with ⟨e1, e2⟩ | ⟨o, l, c, e1, e2, e3, e4, e5, e6⟩
    · exact Or.inl ⟨_, by rw [e1]; rfl, by rw [e2]; rfl⟩
    rcases h.find j with ⟨f1, f2⟩ | ⟨p, r, d, f1, f2, f3, f4, f5, f6⟩
    · exact Or.inl ⟨_, by rw [e1, f1]; rfl, by rw [e2, f2]; rfl⟩
    rw [e1, e2, f1, f2, ok_bind, ok_bind, ok_bind, ok_bind]
    rcases sub_ok f6 off n with ⟨e, g1, g2⟩ | ⟨a, m, rfl, rfl, g1, g2, g3⟩
    · exact Or.inl ⟨_, by rw [g1]; rfl, by rw [g2]; rfl⟩
    rw [g2, ok_bind]
    obtain ⟨h', b', c', h1, h2, h3, h4, -, h5⟩ := Heap.resize_ok grow e5 m (0 : α)
    have hlen := length_resize l m (0 : α)
    -- nothing to copy
    by_cases hm : m = 0
    · right
      subst hm
      have h2' : h'[b']? = some ⟨true, [], c'⟩ := by rw [h2]; simp [Cpp.resize]
      have hres : ∀ q : Ptr, VecObj.assignView grow s.heap o ⟨q, 0⟩ = .ok (h', ⟨⟨some (b', 0), 0⟩, b'⟩) := by
        intro q
        unfold VecObj.assignView
        dsimp only
        have h1' : s.heap.resize grow o.data 0 (0 : α) = .ok (h', b') := h1
        rw [h1', ok_bind]
        dsimp only
        rw [Heap.copy_nil, ok_bind, setData_ok h2']
        rfl
      refine ⟨⟨h', s.vecs.set i (some ⟨⟨some (b', 0), 0⟩, b'⟩)⟩, _, ?_, by rw [if_neg (by omega)], ?_⟩
      · rcases g3 with g3 | ⟨-, g3⟩
        · rw [g3, ok_bind]
          have := hres (some (p.data, (a : Int)))
          simp only [Nat.cast_zero]
          rw [this]; rfl
        · rw [g3, ok_bind, hres]; rfl
      · rw [List.take_zero]
        exact h.setVec e3 h2' (Or.inl rfl) (by rcases h4 with h4 | h4; exact Or.inl h4; exact Or.inr (by show _ ≤ b'; omega)) h3
    have hsub : p.view.sub a m = .ok ⟨some (p.data, (a : Int)), m⟩ := by
      rcases g3 with g3 | ⟨g3, -⟩
      · exact g3
      · exact absurd g3 hm
    rw [hsub, ok_bind]
    unfold VecObj.assignView
    dsimp only
    rw [h1, ok_bind]
    dsimp only
    by_cases hij : i = j
    · subst hij
      obtain rfl : o = p := by rw [e3] at f3; simpa using f3
      obtain rfl : l = r := by rw [e4] at f4; simpa using f4
      have hbo : b' = o.data := h5 (by omega)
      subst hbo
      by_cases ha : a = 0
      · right
        subst ha
        have hc := Heap.copy_self h2
        rw [hlen] at hc
        rw [if_neg (by omega)]
        have hc' : h'.copy (some (o.data, ((0 : Nat) : Int))) m (some (o.data, 0)) = .ok h' := hc
        rw [hc', ok_bind, setData_ok h2]
        refine ⟨_, _, rfl, rfl, ?_⟩
        have : (l.drop 0).take m = Cpp.resize l m 0 := by
          unfold Cpp.resize
          rw [List.drop_zero, Nat.sub_eq_zero_of_le (by omega)]
          simp
        rw [this]
        exact h.setVec e3 h2 (Or.inl rfl) (Or.inl rfl) h3
      · left
        have hc := Heap.copy_cut h2 a (by omega) (by omega)
        rw [hlen] at hc
        rw [hc, if_pos (by refine ⟨rfl, ?_, ?_⟩ <;> omega)]
        exact ⟨_, rfl, rfl⟩
    · right
      have hpo : p.data ≠ o.data := h.apart j i p o (Ne.symm hij) f3 e3
      have hplt := h.data_lt f3
      have hpb : p.data ≠ b' := by rcases h4 with h4 | h4; rw [h4]; exact hpo; omega
      have hp' : h'[p.data]? = some ⟨true, r, d⟩ := by rw [h3 _ hpo hplt, f5]
      have hc := Heap.copy_ok h2 hp' hpb a (by rw [hlen]; omega)
      rw [hlen] at hc
      rw [hc, ok_bind, setData_ok (Heap.get_set h2), if_neg (by omega)]
      refine ⟨_, _, rfl, rfl, h.setVec e3 (Heap.get_set h2) (Or.inl rfl) (by rcases h4 with h4 | h4; exact Or.inl h4; exact Or.inr (by show _ ≤ b'; omega)) ?_⟩
      intro q hq hql
      rw [Heap.get_set_ne (by rcases h4 with h4 | h4; rw [h4]; exact hq; omega), h3 q hq hql]
  | assignMut i j off n =>
    simp only [Store.step, Vals.step]
    rcases h.find i with ⟨e1, e2⟩ | ⟨o, l, c, e1, e2, e3, e4, e5, e6⟩
    · exact Or.inl ⟨_, by rw [e1]; rfl, by rw [e2]; rfl⟩
    rcases h.find j with ⟨f1, f2⟩ | ⟨p, r, d, f1, f2, f3, f4, f5, f6⟩
    · exact Or.inl ⟨_, by rw [e1, f1]; rfl, by rw [e2, f2]; rfl⟩
    rw [e1, e2, f1, f2, ok_bind, ok_bind, ok_bind, ok_bind]
    rcases sub_ok f6 off n with ⟨e, g1, g2⟩ | ⟨a, m, rfl, rfl, g1, g2, g3⟩
    · exact Or.inl ⟨_, by rw [g1]; rfl, by rw [g2]; rfl⟩
    rw [g2, ok_bind]
    have hlen : ((r.drop a).take m).length = m := by simp; omega
    rw [hlen]
    obtain ⟨w, hw, hwm, hwp⟩ : ∃ w, p.view.sub a m = .ok w ∧ w.size = m ∧ (m ≠ 0 → w.ptr = some (p.data, (a : Int))) := by
      rcases g3 with g3 | ⟨g3, g4⟩
      · exact ⟨_, g3, rfl, fun _ => rfl⟩
      · exact ⟨_, g4, by rw [g3]; rfl, fun hm => absurd g3 hm⟩
    rw [hw, ok_bind]
    unfold ViewObj.assign
    rw [Shows.size e6, hwm]
    by_cases hml : m = l.length
    · right
      subst hml
      rw [cassert_true rfl, ok_bind, if_pos rfl]
      by_cases h0 : l.length = 0
      · rw [h0]
        have hl0 : l = [] := List.length_eq_zero_iff.mp h0
        rw [Int.ofNat_zero, Heap.copy_nil, ok_bind]
        refine ⟨_, _, rfl, rfl, ?_⟩
        have := h.write e3 e5 e6 (r := l) rfl
        rw [Heap.set_self e5] at this
        rw [List.take_zero, ← hl0]
        exact this
      · rw [hwp h0, Shows.ptr e6 (by omega)]
        by_cases hij : i = j
        · subst hij
          obtain rfl : o = p := by rw [e3] at f3; simpa using f3
          obtain rfl : l = r := by rw [e4] at f4; simpa using f4
          obtain rfl : a = 0 := by omega
          have hc : s.heap.copy (some (o.data, ((0 : Nat) : Int))) l.length (some (o.data, 0)) = .ok s.heap := Heap.copy_self e5
          rw [hc, ok_bind]
          refine ⟨_, _, rfl, rfl, ?_⟩
          have := h.write e3 e5 e6 (r := l) rfl
          rw [Heap.set_self e5] at this
          rw [List.drop_zero, List.take_length]
          exact this
        · rw [Heap.copy_ok e5 f5 (h.apart j i p o (Ne.symm hij) f3 e3) a g1, ok_bind]
          exact ⟨_, _, rfl, rfl, h.write e3 e5 e6 hlen⟩
    · left
      rw [cassert_false (by omega), if_neg hml]
      exact ⟨_, rfl, rfl⟩
  | assignMove i j =>
    simp only [Store.step, Vals.step]
    rcases h.find i with ⟨e1, e2⟩ | ⟨o, l, c, e1, e2, e3, e4, e5, e6⟩
    · exact Or.inl ⟨_, by rw [e1]; rfl, by rw [e2]; rfl⟩
    rcases h.find j with ⟨f1, f2⟩ | ⟨p, r, d, f1, f2, f3, f4, f5, f6⟩
    · exact Or.inl ⟨_, by rw [e1, f1]; rfl, by rw [e2, f2]; rfl⟩
    rw [e1, e2, f1, f2, ok_bind, ok_bind, ok_bind, ok_bind]
    right
    unfold VecObj.assignMove VecObj.swap
    dsimp only
    rw [setData_ok f5, ok_bind]
    exact ⟨_, _, rfl, rfl, swap_holds h e3 e4 f3 f4 rfl (Or.inl rfl) rfl e6⟩
  | swap i j =>
    simp only [Store.step, Vals.step]
    rcases h.find i with ⟨e1, e2⟩ | ⟨o, l, c, e1, e2, e3, e4, e5, e6⟩
    · exact Or.inl ⟨_, by rw [e1]; rfl, by rw [e2]; rfl⟩
    rcases h.find j with ⟨f1, f2⟩ | ⟨p, r, d, f1, f2, f3, f4, f5, f6⟩
    · exact Or.inl ⟨_, by rw [e1, f1]; rfl, by rw [e2, f2]; rfl⟩
    rw [e1, e2, f1, f2, ok_bind, ok_bind, ok_bind, ok_bind]
    right
    exact ⟨_, _, rfl, rfl, swap_holds h e3 e4 f3 f4 rfl f6 rfl e6⟩
  | destroy i =>
    simp only [Store.step, Vals.step]
    rcases h.find i with ⟨e1, e2⟩ | ⟨o, l, c, e1, e2, e3, e4, e5, e6⟩
    · exact Or.inl ⟨_, by rw [e1]; rfl, by rw [e2]; rfl⟩
    rw [e1, e2, ok_bind, ok_bind]
    right
    refine ⟨_, _, rfl, rfl, ?_⟩
    have hi : i < s.vecs.length := (List.getElem?_eq_some_iff.mp e3).1
    have hi' : i < vs.length := by rw [← h.len]; exact hi
    have key : ∀ (j : Nat) (x : Option VecObj), (s.vecs.set i none)[j]? = some x → (j = i ∧ x = none) ∨ (j ≠ i ∧ s.vecs[j]? = some x) := by
      intro j x hx
      by_cases hj : j = i
      · subst hj
        rw [List.getElem?_set_self hi] at hx
        exact Or.inl ⟨rfl, (Option.some.inj hx).symm⟩
      · rw [List.getElem?_set_ne (Ne.symm hj)] at hx
        exact Or.inr ⟨hj, hx⟩
    constructor
    · simp [h.len]
    · intro j a ha
      rcases key j _ ha with ⟨hj, hx⟩ | ⟨hj, hx⟩
      · cases hx
      · obtain ⟨l', c', g1, g2, g3⟩ := h.vec j a hx
        refine ⟨l', c', ?_, by rw [List.getElem?_set_ne (Ne.symm hj), g2], g3⟩
        show (s.heap.set o.data _)[a.data]? = _
        rw [Heap.get_set_ne (h.apart j i a o hj hx e3), g1]
    · intro j ha
      rcases key j _ ha with ⟨hj, hx⟩ | ⟨hj, hx⟩
      · rw [hj, List.getElem?_set_self hi']
      · rw [List.getElem?_set_ne (Ne.symm hj), h.gone j hx]
    · intro j k a a' hjk ha ha'
      rcases key j _ ha with ⟨hj, hx⟩ | ⟨hj, hx⟩
      · cases hx
      rcases key k _ ha' with ⟨hk, hy⟩ | ⟨hk, hy⟩
      · cases hy
      exact h.apart j k a a' hjk hx hy
  | put i k x =>
    simp only [Store.step, Vals.step]
    rcases h.find i with ⟨e1, e2⟩ | ⟨o, l, c, e1, e2, e3, e4, e5, e6⟩
    · exact Or.inl ⟨_, by rw [e1]; rfl, by rw [e2]; rfl⟩
    rw [e1, e2, ok_bind, ok_bind]
    have hsz := Shows.size e6
    unfold ViewObj.put
    rw [hsz]
    by_cases h1 : (l.length : Int) ≤ k
    · left
      rw [cassert_false (by omega), if_pos h1]
      exact ⟨_, rfl, rfl⟩
    rw [cassert_true (by omega), ok_bind, if_neg h1]
    by_cases h2 : k < 0
    · left
      rw [if_pos h2]
      refine ⟨_, ?_, rfl⟩
      rcases e6 with hs | ⟨hs, hl⟩
      · rw [hs]
        unfold Heap.store
        simp only [Heap.block_ok e5, ok_bind]
        rw [wr_oob (by omega)]
        rfl
      · rw [hs]
        rfl
    · right
      rw [if_neg h2]
      obtain ⟨k, rfl⟩ := Int.eq_ofNat_of_zero_le (not_lt.mp h2)
      rw [Shows.ptr e6 (by omega), Heap.store_ok e5 k (by omega), ok_bind]
      exact ⟨_, _, rfl, rfl, h.write e3 e5 e6 (by simp)⟩
  | fill i x =>
    simp only [Store.step, Vals.step]
    rcases h.find i with ⟨e1, e2⟩ | ⟨o, l, c, e1, e2, e3, e4, e5, e6⟩
    · exact Or.inl ⟨_, by rw [e1]; rfl, by rw [e2]; rfl⟩
    rw [e1, e2, ok_bind, ok_bind]
    right
    have hf : o.view.fill s.heap x = .ok (s.heap.set o.data ⟨true, l.map (fun _ => x), c⟩) := by
      unfold ViewObj.fill
      rw [Shows.size e6]
      have := Heap.fillLoop e5 (fun _ => x) (fun k h => h.store o.view.ptr k x) (by
        intro k y hk hy _
        rw [Shows.ptr e6 (by omega), Heap.store_ok (Heap.get_set e5) k (by omega), List.set_set])
      rw [this, List.map_const', List.map_const', List.length_range]
    rw [hf, ok_bind]
    exact ⟨_, _, rfl, rfl, h.write e3 e5 e6 (by simp)⟩
  | update i f j =>
    simp only [Store.step, Vals.step]
    rcases h.find i with ⟨e1, e2⟩ | ⟨o, l, c, e1, e2, e3, e4, e5, e6⟩
    · exact Or.inl ⟨_, by rw [e1]; rfl, by rw [e2]; rfl⟩
    rcases h.find j with ⟨f1, f2⟩ | ⟨p, r, d, f1, f2, f3, f4, f5, f6⟩
    · exact Or.inl ⟨_, by rw [e1, f1]; rfl, by rw [e2, f2]; rfl⟩
    rw [e1, e2, f1, f2, ok_bind, ok_bind, ok_bind, ok_bind]
    by_cases hlr : l.length = r.length
    · right
      rw [if_pos hlr]
      have hf : o.view.update f p.view s.heap = .ok (s.heap.set o.data ⟨true, l.zipWith f r, c⟩) := by
        unfold ViewObj.update
        rw [Shows.size e6, Shows.size f6, cassert_true (by omega), ok_bind]
        have := Heap.fillLoop e5 (fun k => f (l.getD k 0) (r.getD k 0)) (fun k h => do
          let b ← p.view.get h k
          let a ← o.view.get h k
          o.view.put h k (f a b)) (by
          intro k y hk hy hyk
          unfold ViewObj.get ViewObj.put
          rw [Shows.size e6, Shows.size f6, cassert_true (show ((k : Nat) : Int) < l.length by omega), cassert_true (show ((k : Nat) : Int) < r.length by omega)]
          simp only [ok_bind]
          rw [Shows.ptr e6 (by omega), Shows.ptr f6 (by omega)]
          have hyl : y[k]'(by omega) = l.getD k 0 := by
            rw [List.getD_eq_getElem?_getD, ← hyk, List.getElem?_eq_getElem (by omega)]; rfl
          have hr : Heap.load (s.heap.set o.data ⟨true, y, c⟩) (some (p.data, 0)) k = .ok (r.getD k 0) := by
            by_cases hij : i = j
            · subst hij
              obtain rfl : o = p := by rw [e3] at f3; simpa using f3
              obtain rfl : l = r := by rw [e4] at f4; simpa using f4
              rw [Heap.load_ok (Heap.get_set e5), Int.zero_add, rd_nat (by omega), hyl]
            · rw [Heap.load_ok (l := r) (c := d) (by rw [Heap.get_set_ne (h.apart j i p o (Ne.symm hij) f3 e3), f5]), Int.zero_add, rd_nat (by omega)]
              rw [List.getD_eq_getElem?_getD, List.getElem?_eq_getElem (by omega)]; rfl
          rw [hr, ok_bind, Heap.load_ok (Heap.get_set e5), Int.zero_add, rd_nat (by omega), ok_bind, Heap.store_ok (Heap.get_set e5) k (by omega),
            List.set_set, hyl])
        rw [this]
        congr 3
        congr 1
        apply List.ext_getElem
        · simp; omega
        · intro k h1 h2
          have hk : k < l.length := by simpa using h1
          simp [hk, show k < r.length by omega]
      rw [hf, ok_bind]
      exact ⟨_, _, rfl, rfl, h.write e3 e5 e6 (by simp; omega)⟩
    · left
      rw [if_neg hlr]
      unfold ViewObj.update
      rw [Shows.size e6, Shows.size f6, cassert_false (by omega)]
      exact ⟨_, rfl, rfl⟩

theorem run_ok [Zero α] (grow : Nat → Nat → Nat) (ops : List (Stmt α)) {s : Store α} {vs : List (Option (List α))} (h : s.Holds vs) :
    (∃ e, s.run grow ops = .error e ∧ Vals.run ops vs = .error e) ∨
      ∃ s' vs', s.run grow ops = .ok s' ∧ Vals.run ops vs = .ok vs' ∧ s'.Holds vs' := by
  induction ops generalizing s vs with
  | nil => exact Or.inr ⟨s, vs, rfl, rfl, h⟩
  | cons op ops ih =>
    unfold Store.run Vals.run
    rw [List.foldlM_cons, List.foldlM_cons]
    rcases step_ok grow h op with ⟨e, h1, h2⟩ | ⟨s', vs', h1, h2, h3⟩
    · exact Or.inl ⟨e, by rw [h1]; rfl, by rw [h2]; rfl⟩
    · rw [h1, h2]
      exact ih h3

theorem empty_holds : Store.Holds (⟨[], []⟩ : Store α) [] := by
  constructor
  · rfl
  · intro i o h; cases h
  · intro i h; cases h
  · intro i j o o' _ h; cases h

/-- The elements seen through a view of a vector. -/
theorem view_elems [Zero α] {h : Heap α} {b : Nat} {l : List α} {c : Nat} (hb : h[b]? = some ⟨true, l, c⟩) (a m : Nat) (hm : a + m ≤ l.length) :
    (⟨some (b, (a : Int)), m⟩ : ViewObj).elems h = .ok ((l.drop a).take m) := by
  unfold ViewObj.elems
  dsimp only
  rw [Int.toNat_natCast]
  rw [mapM_ok _ _ (fun k => ((l.drop a).take m).getD k.toNat 0)]
  · congr 1
    apply List.ext_getElem
    · simp [iota]; omega
    · intro k h1 h2
      have hk : k < m := by simpa [iota] using h1
      simp [iota, List.getElem?_take_of_lt hk, show a + k < l.length by omega]
  · intro k hk
    obtain ⟨k0, k1⟩ := mem_iota.mp hk
    obtain ⟨k, rfl⟩ := Int.eq_ofNat_of_zero_le k0
    rw [Heap.load_ok hb, show (a : Int) + (k : Int) = ((a + k : Nat) : Int) by push_cast; rfl, rd_nat (by omega)]
    simp [List.getElem?_take_of_lt (show k < m by omega), show a + k < l.length by omega]

theorem vec_elems [Zero α] {s : Store α} {vs : List (Option (List α))} (h : s.Holds vs) (i : Nat) : s.elems i = Vals.vec vs i := by
  unfold Store.elems
  rcases h.find i with ⟨e1, e2⟩ | ⟨o, l, c, e1, e2, e3, e4, e5, e6⟩
  · rw [e1, e2]; rfl
  · rw [e1, e2, ok_bind]
    rcases e6 with hs | ⟨hs, hl⟩
    · have := view_elems e5 0 l.length (by omega)
      rw [List.drop_zero, List.take_length] at this
      rw [hs]
      exact this
    · rw [hs, hl]; rfl

end Own

/-! ## C90 -/

/-- **C90.**  A program with vectors - constructing, copying, moving, resizing, assigning, swapping, writing and destroying them in any
order - does what it would do if every vector were the list of its elements: same failures, and the same elements of every vector at the
end.  Whatever the allocator does. -/
theorem C90_values [Zero α] (grow : Nat → Nat → Nat) (ops : List (Stmt α)) :
    (∀ e, Vals.run ops [] = .error e → Store.run grow ops ⟨[], []⟩ = .error e) ∧
      ∀ vs, Vals.run ops [] = .ok vs → ∃ s, Store.run grow ops ⟨[], []⟩ = .ok s ∧ s.vecs.length = vs.length ∧ ∀ i, s.elems i = Vals.vec vs i := by
  rcases Own.run_ok grow ops Own.empty_holds with ⟨e, h1, h2⟩ | ⟨s, vs, h1, h2, h3⟩
  · refine ⟨fun e' he => ?_, fun vs hv => ?_⟩
    · rw [h2] at he; cases he; exact h1
    · rw [h2] at hv; cases hv
  · refine ⟨fun e' he => ?_, fun vs' hv => ?_⟩
    · rw [h2] at he; cases he
    · rw [h2] at hv; cases hv
      exact ⟨s, h1, h3.len, fun i => Own.vec_elems h3 i⟩

/-- **C90.**  No two vectors ever share storage: in every state a program can reach, different vectors have different storage, it is
allocated, and the pointer and size of each vector are those of its own storage (an empty vector may have a null pointer). -/
theorem C90_apart [Zero α] (grow : Nat → Nat → Nat) (ops : List (Stmt α)) (s : Store α) (h : Store.run grow ops ⟨[], []⟩ = .ok s) (i j : Nat)
    (v w : VecObj) (hij : i ≠ j) (hv : s.vec i = .ok v) (hw : s.vec j = .ok w) :
    v.data ≠ w.data ∧ ∃ B, s.heap.block v.data = .ok B ∧ v.view.size = B.cells.length ∧ (v.view.ptr = some (v.data, 0) ∨ v.view.size = 0) := by
  rcases Own.run_ok grow ops Own.empty_holds with ⟨e, h1, h2⟩ | ⟨s', vs, h1, h2, h3⟩
  · rw [h] at h1; cases h1
  · rw [h] at h1; cases h1
    rcases h3.find i with ⟨e1, e2⟩ | ⟨o, l, c, e1, e2, e3, e4, e5, e6⟩
    · rw [hv] at e1; cases e1
    rcases h3.find j with ⟨f1, f2⟩ | ⟨p, r, d, f1, f2, f3, f4, f5, f6⟩
    · rw [hw] at f1; cases f1
    rw [hv] at e1; cases e1
    rw [hw] at f1; cases f1
    refine ⟨h3.apart i j v w hij e3 f3, _, Heap.block_ok e5, Own.Shows.size e6, ?_⟩
    rcases e6 with hs | ⟨hs, -⟩
    · left; rw [hs]
    · right; rw [hs]

/-! ## C91 -/

/-- The statements that leave the storage of vector `i` where it is. -/
def Stmt.Keeps (i : Nat) : Stmt α → Prop
  | .move j => j ≠ i
  | .setSize j _ _ => j ≠ i
  | .assign j _ => j ≠ i
  | .assignView j _ _ _ => j ≠ i
  | .assignMove j k => j ≠ i ∧ k ≠ i
  | .swap j k => j ≠ i ∧ k ≠ i
  | .destroy j => j ≠ i
  | _ => True

namespace Own

theorem step_keeps [Zero α] (grow : Nat → Nat → Nat) {s s' : Store α} {op : Stmt α} {i : Nat} {o : VecObj} (ho : s.vecs[i]? = some (some o))
    (hk : op.Keeps i) (h : s.step grow op = .ok s') : s'.vecs[i]? = some (some o) := by
  have hi : i < s.vecs.length := (List.getElem?_eq_some_iff.mp ho).1
  cases op <;> simp only [Store.step, bind_eq_ok, Stmt.Keeps] at h hk
  case make n x =>
    obtain ⟨⟨_, _⟩, -, h⟩ := h
    cases h
    rw [List.getElem?_append_left hi, ho]
  case std l =>
    obtain ⟨⟨_, _⟩, -, h⟩ := h
    cases h
    rw [List.getElem?_append_left hi, ho]
  case ofView j off n =>
    obtain ⟨_, -, _, -, ⟨_, _⟩, -, h⟩ := h
    cases h
    rw [List.getElem?_append_left hi, ho]
  case copy j =>
    obtain ⟨_, -, ⟨_, _⟩, -, h⟩ := h
    cases h
    rw [List.getElem?_append_left hi, ho]
  case move j =>
    obtain ⟨_, -, ⟨_, _, _⟩, -, h⟩ := h
    cases h
    rw [List.getElem?_append_left (by simpa using hi), List.getElem?_set_ne hk, ho]
  case setSize j n x =>
    obtain ⟨_, -, ⟨_, _⟩, -, h⟩ := h
    cases h
    rw [List.getElem?_set_ne hk, ho]
  case assign j k =>
    obtain ⟨_, -, _, -, h⟩ := h
    split at h <;>
    · rw [bind_eq_ok] at h
      obtain ⟨⟨_, _⟩, -, h⟩ := h
      cases h
      rw [List.getElem?_set_ne hk, ho]
  case assignView j k off n =>
    obtain ⟨_, -, _, -, _, -, ⟨_, _⟩, -, h⟩ := h
    cases h
    rw [List.getElem?_set_ne hk, ho]
  case assignMut j k off n =>
    obtain ⟨_, -, _, -, _, -, _, -, h⟩ := h
    cases h
    exact ho
  case assignMove j k =>
    obtain ⟨_, -, _, -, ⟨_, _⟩, -, h⟩ := h
    cases h
    rw [List.getElem?_set_ne hk.1, List.getElem?_set_ne hk.2, ho]
  case swap j k =>
    obtain ⟨_, -, _, -, h⟩ := h
    cases h
    rw [List.getElem?_set_ne hk.1, List.getElem?_set_ne hk.2, ho]
  case destroy j =>
    obtain ⟨_, -, h⟩ := h
    cases h
    rw [List.getElem?_set_ne hk, ho]
  case put j k x =>
    obtain ⟨_, -, _, -, h⟩ := h
    cases h
    exact ho
  case fill j x =>
    obtain ⟨_, -, _, -, h⟩ := h
    cases h
    exact ho
  case update j f k =>
    obtain ⟨_, -, _, -, _, -, h⟩ := h
    cases h
    exact ho

theorem run_keeps [Zero α] (grow : Nat → Nat → Nat) {ops : List (Stmt α)} {s s' : Store α} {i : Nat} {o : VecObj} (ho : s.vecs[i]? = some (some o))
    (hk : ∀ op ∈ ops, op.Keeps i) (h : s.run grow ops = .ok s') : s'.vecs[i]? = some (some o) := by
  induction ops generalizing s with
  | nil => cases h; exact ho
  | cons op ops ih =>
    unfold Store.run at h
    rw [List.foldlM_cons, bind_eq_ok] at h
    obtain ⟨t, h1, h2⟩ := h
    exact ih (step_keeps grow ho (hk op (by simp)) h1) (fun q hq => hk q (by simp [hq])) h2

end Own

/-- **C91.**  A view of part of a vector, taken at any time, shows the elements the vector has now, as long as no statement has moved,
resized, reassigned, swapped or destroyed the vector - whatever else happened, including writes to the vector. -/
theorem C91_view [Zero α] (grow : Nat → Nat → Nat) (ops ops' : List (Stmt α)) (s s' : Store α) (h : Store.run grow ops ⟨[], []⟩ = .ok s)
    (h' : s.run grow ops' = .ok s') (i : Nat) (v : VecObj) (hv : s.vec i = .ok v) (off n : Int) (w : ViewObj) (hw : v.view.sub off n = .ok w)
    (hk : ∀ op ∈ ops', op.Keeps i) :
    ∃ l, s'.elems i = .ok l ∧ w.elems s'.heap = Vals.slice l off n := by
  rcases Own.run_ok grow ops Own.empty_holds with ⟨e, h1, h2⟩ | ⟨t, vs, h1, h2, h3⟩
  · rw [h] at h1; cases h1
  rw [h] at h1; cases h1
  rcases h3.find i with ⟨e1, e2⟩ | ⟨o, l, c, e1, e2, e3, e4, e5, e6⟩
  · rw [hv] at e1; cases e1
  rw [hv] at e1; cases e1
  have ho := Own.run_keeps grow e3 hk h'
  rcases Own.run_ok grow ops' h3 with ⟨e, g1, g2⟩ | ⟨t, vs', g1, g2, g3⟩
  · rw [h'] at g1; cases g1
  rw [h'] at g1; cases g1
  obtain ⟨r, d, f1, f2, f3⟩ := g3.vec i v ho
  refine ⟨r, ?_, ?_⟩
  · rw [Own.vec_elems g3 i]; unfold Vals.vec; rw [f2]
  · rcases Own.sub_ok f3 off n with ⟨e, k1, k2⟩ | ⟨a, m, rfl, rfl, k1, k2, k3⟩
    · rw [hw] at k1; cases k1
    · rw [k2]
      rcases k3 with k3 | ⟨k3, k4⟩
      · rw [hw] at k3; cases k3
        exact Own.view_elems f1 a m k1
      · rw [hw] at k4; cases k4
        rw [k3]
        rfl

/-- **C91.**  Writing through a view of a vector writes the vector, and no other. -/
theorem C91_write [Zero α] (grow : Nat → Nat → Nat) (ops : List (Stmt α)) (s : Store α) (h : Store.run grow ops ⟨[], []⟩ = .ok s)
    (i : Nat) (v : VecObj) (hv : s.vec i = .ok v) (off n : Int) (w : ViewObj) (hw : v.view.sub off n = .ok w) (k : Int) (k0 : 0 ≤ k) (k1 : k < n)
    (x : α) :
    ∃ h' l, w.put s.heap k x = .ok h' ∧ s.elems i = .ok l ∧ (⟨h', s.vecs⟩ : Store α).elems i = .ok (l.set (off + k).toNat x) ∧
      ∀ j, j ≠ i → (⟨h', s.vecs⟩ : Store α).elems j = s.elems j := by
  rcases Own.run_ok grow ops Own.empty_holds with ⟨e, h1, h2⟩ | ⟨t, vs, h1, h2, h3⟩
  · rw [h] at h1; cases h1
  rw [h] at h1; cases h1
  rcases h3.find i with ⟨e1, e2⟩ | ⟨o, l, c, e1, e2, e3, e4, e5, e6⟩
  · rw [hv] at e1; cases e1
  rw [hv] at e1; cases e1
  rcases Own.sub_ok e6 off n with ⟨e, k1, k2⟩ | ⟨a, m, rfl, rfl, f1, f2, f3⟩
  · rw [hw] at k1; cases k1
  have hm : m ≠ 0 := by omega
  rcases f3 with f3 | ⟨f3, -⟩
  swap
  · exact absurd f3 hm
  rw [hw] at f3; cases f3
  obtain ⟨k, rfl⟩ := Int.eq_ofNat_of_zero_le k0
  have hput : (⟨some (v.data, (a : Int)), m⟩ : ViewObj).put s.heap k x = .ok (s.heap.set v.data ⟨true, l.set (a + k) x, c⟩) := by
    unfold ViewObj.put
    dsimp only
    rw [cassert_true k1, ok_bind]
    unfold Heap.store
    simp only [Heap.block_ok e5, ok_bind]
    rw [show (a : Int) + (k : Int) = ((a + k : Nat) : Int) by push_cast; rfl, wr_nat (by omega)]
    rfl
  have hh := h3.write e3 e5 e6 (r := l.set (a + k) x) (by simp)
  refine ⟨_, l, hput, ?_, ?_, ?_⟩
  · rw [Own.vec_elems h3 i, e2]
  · rw [Own.vec_elems hh i]
    unfold Vals.vec
    rw [List.getElem?_set_self (List.getElem?_eq_some_iff.mp e4).1]
    dsimp only
    congr 2
  · intro j hj
    rw [Own.vec_elems hh j, Own.vec_elems h3 j]
    unfold Vals.vec
    rw [List.getElem?_set_ne (Ne.symm hj)]

/-- **C91.**  After the vector is moved into a new one, its views show the elements of the new one. -/
theorem C91_moved [Zero α] (grow : Nat → Nat → Nat) (ops : List (Stmt α)) (s s' : Store α) (h : Store.run grow ops ⟨[], []⟩ = .ok s)
    (i : Nat) (v : VecObj) (hv : s.vec i = .ok v) (off n : Int) (w : ViewObj) (hw : v.view.sub off n = .ok w) (h' : s.step grow (.move i) = .ok s') :
    ∃ l, s'.elems i = .ok [] ∧ s'.elems s.vecs.length = .ok l ∧ w.elems s'.heap = Vals.slice l off n := by
  rcases Own.run_ok grow ops Own.empty_holds with ⟨e, h1, h2⟩ | ⟨t, vs, h1, h2, h3⟩
  · rw [h] at h1; cases h1
  rw [h] at h1; cases h1
  rcases h3.find i with ⟨e1, e2⟩ | ⟨o, l, c, e1, e2, e3, e4, e5, e6⟩
  · rw [hv] at e1; cases e1
  rw [hv] at e1; cases e1
  have hi : i < vs.length := (List.getElem?_eq_some_iff.mp e4).1
  rcases Own.step_ok grow h3 (.move i) with ⟨e, g1, g2⟩ | ⟨t, vs', g1, g2, g3⟩
  · rw [h'] at g1; cases g1
  rw [h'] at g1; cases g1
  have hvs : vs' = vs.set i (some []) ++ [some l] := by
    simp only [Vals.step, e2, ok_bind] at g2
    exact (Except.ok.inj g2).symm
  refine ⟨l, ?_, ?_, ?_⟩
  · rw [Own.vec_elems g3, hvs]
    unfold Vals.vec
    rw [List.getElem?_append_left (by simpa using hi), List.getElem?_set_self hi]
  · rw [Own.vec_elems g3, hvs]
    unfold Vals.vec
    rw [h3.len, List.getElem?_append_right (by simp)]
    simp
  · have ho' : (VecObj.init s.heap).1[v.data]? = some ⟨true, l, c⟩ := by
      have := Heap.alloc_old s.heap [] (h3.data_lt e3)
      rw [e5] at this
      exact this
    have hs' : s'.heap = (VecObj.init s.heap).1 := by
      simp only [Store.step, hv, ok_bind, VecObj.move, VecObj.swap] at h'
      rw [Own.setData_ok ho', ok_bind] at h'
      have := Except.ok.inj h'
      rw [← this]
    rw [hs']
    rcases Own.sub_ok e6 off n with ⟨e, k1, k2⟩ | ⟨a, m, rfl, rfl, k1, k2, k3⟩
    · rw [hw] at k1; cases k1
    · rw [k2]
      rcases k3 with k3 | ⟨k3, k4⟩
      · rw [hw] at k3; cases k3
        exact Own.view_elems ho' a m k1
      · rw [hw] at k4; cases k4
        rw [k3]
        rfl

/-- **C91.**  A view does not survive its vector growing: the storage it points to is gone. -/
theorem C91_dangling : ∃ (s s' : Store Int) (v : VecObj) (w : ViewObj), Store.run (fun _ n => n) [.std [1, 2]] ⟨[], []⟩ = .ok s ∧ s.vec 0 = .ok v ∧
    v.view.sub 0 2 = .ok w ∧ w.elems s.heap = .ok [1, 2] ∧ s.step (fun _ n => n) (.setSize 0 3 0) = .ok s' ∧
    s'.elems 0 = .ok [1, 2, 0] ∧ w.elems s'.heap = .error .undefinedBehaviour :=
  ⟨⟨[⟨true, [1, 2], 2⟩], [some ⟨⟨some (0, 0), 2⟩, 0⟩]⟩, ⟨[⟨false, [], 0⟩, ⟨true, [1, 2, 0], 3⟩], [some ⟨⟨some (1, 0), 3⟩, 1⟩]⟩,
    ⟨⟨some (0, 0), 2⟩, 0⟩, ⟨some (0, 0), 2⟩, rfl, rfl, rfl, rfl, rfl, rfl, rfl⟩

/-- **C91.**  A view of a view is the view of the original elements that the two ranges name together. -/
theorem C91_nested (v w : ViewObj) (off n off' n' : Int) (hw : v.sub off n = .ok w) (h0 : 0 ≤ off') (hn : 0 ≤ n') (h1 : off' + n' ≤ n) :
    w.sub off' n' = v.sub (off + off') n' := by
  unfold ViewObj.sub at hw
  by_cases h : 0 ≤ n
  swap
  · rw [cassert_false h] at hw; cases hw
  rw [cassert_true h, ok_bind] at hw
  split at hw
  swap
  · cases hw
  cases hw
  unfold ViewObj.sub
  rw [cassert_true hn, ok_bind, ok_bind, if_pos ⟨h0, h1⟩, if_pos (by omega)]
  cases v.ptr with
  | none => rfl
  | some p => simp [add_assoc]

example : (⟨some (0, 0), 5⟩ : ViewObj).sub 1 3 = .ok ⟨some (0, 1), 3⟩ ∧ (⟨some (0, 1), 3⟩ : ViewObj).sub 1 2 = .ok ⟨some (0, 2), 2⟩ :=
  ⟨rfl, rfl⟩

/-- **C91.**  `v = view` resizes `v` when the view is constant and fails when it is not, so `v = A.GetColView(0)` into an empty vector
fails; and a vector cannot be assigned its own tail. -/
theorem C91_assign : ∃ s : Store Int, Store.run (fun _ n => n) [.std [1, 2, 3], .std []] ⟨[], []⟩ = .ok s ∧
    (s.step (fun _ n => n) (.assignView 1 0 1 2)).bind (fun s => s.elems 1) = .ok [2, 3] ∧
    (s.step (fun _ n => n) (.assignMut 1 0 1 2)).bind (fun s => s.elems 1) = .error .assertFail ∧
    (s.step (fun _ n => n) (.assignView 0 0 1 2)).bind (fun s => s.elems 0) = .error .outOfBounds :=
  ⟨⟨[⟨true, [1, 2, 3], 3⟩, ⟨true, [], 0⟩], [some ⟨⟨some (0, 0), 3⟩, 0⟩, some ⟨⟨some (1, 0), 0⟩, 1⟩]⟩, rfl, rfl, rfl, rfl⟩

/-- A program: two vectors, a copy that is changed, a move, growth, self assignment, destruction. -/
def Own.exProg : List (Stmt Int) :=
  [.make 2 7, .std [1, 2, 3], .copy 1, .put 2 0 9, .move 1, .setSize 0 3 5, .update 0 (fun a b => a + b) 3, .assign 3 3, .assignMove 1 2, .swap 0 3,
    .ofView 3 1 2, .destroy 2]

example : Vals.run Own.exProg [] = .ok [some [1, 2, 3], some [9, 2, 3], none, some [8, 9, 8], some [9, 8]] ∧
    (Store.run (fun _ n => 2 * n) Own.exProg ⟨[], []⟩).bind (fun s => [0, 1, 3, 4].mapM (fun i => s.elems i))
      = .ok [[1, 2, 3], [9, 2, 3], [8, 9, 8], [9, 8]] := ⟨rfl, rfl⟩

/-- Two writes of the same vector leave its storage where it is, so `C91_view` applies. -/
example : ∀ op ∈ ([.put 0 1 4, .copy 0, .fill 1 2, .update 0 (fun a b => a * b) 0] : List (Stmt Int)), op.Keeps 0 := by
  intro op h
  simp at h
  rcases h with rfl | rfl | rfl | rfl <;> trivial

end Linalg
