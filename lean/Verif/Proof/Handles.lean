import Verif.Proof.Life
import Verif.Spec.Handles

/-!
# The cells of an object
-/

namespace Linalg
open Cpp

variable {C : Type} {α : Type}

namespace Mem
variable {m m' m1 m2 : Mem C} {k : Nat} {c : C}

theorem get_ok (h : m[k]? = some (some c)) : m.get k = .ok c := by unfold get; rw [h]

theorem put_ok (h : m[k]? = some (some c)) (d : C) : m.put k d = .ok (m.set k (some d)) := by
  unfold put
  rw [get_ok h, ok_bind]

theorem free_ok (h : m[k]? = some (some c)) : m.free k = .ok (m.set k none) := by
  unfold free
  rw [get_ok h, ok_bind]

/-- The cells at some addresses. -/
def Has (m : Mem C) (fp : List (Nat × C)) : Prop := ∀ p ∈ fp, m[p.1]? = some (some p.2)

theorem has_cons {p : Nat × C} {fp : List (Nat × C)} : m.Has (p :: fp) ↔ m[p.1]? = some (some p.2) ∧ m.Has fp := by
  simp [Has]

theorem has_append {fp fq : List (Nat × C)} : m.Has (fp ++ fq) ↔ m.Has fp ∧ m.Has fq := by
  simp only [Has, List.mem_append]
  constructor
  · intro h; exact ⟨fun p hp => h p (Or.inl hp), fun p hp => h p (Or.inr hp)⟩
  · rintro ⟨h1, h2⟩ p (hp | hp)
    · exact h1 p hp
    · exact h2 p hp

theorem Has.congr {fp : List (Nat × C)} (h : m.Has fp) (e : ∀ k ∈ fp.map Prod.fst, m'[k]? = m[k]?) : m'.Has fp := by
  intro p hp
  rw [e p.1 (List.mem_map_of_mem hp), h p hp]

theorem Has.live {fp : List (Nat × C)} (h : m.Has fp) {k : Nat} (hk : k ∈ fp.map Prod.fst) : m.Live k := by
  obtain ⟨p, hp, rfl⟩ := List.mem_map.mp hk
  exact ⟨p.2, h p hp⟩

/-- Just these cells, at the addresses `s`. -/
def Owns (m : Mem C) (fp : List (Nat × C)) (s : List Nat) : Prop := m.Has fp ∧ s = fp.map Prod.fst ∧ s.Nodup

theorem Owns.frame {fp : List (Nat × C)} {s : List Nat} (h : m.Owns fp s) (e : ∀ k ∈ s, m'[k]? = m[k]?) : m'.Owns fp s := by
  obtain ⟨h1, rfl, h3⟩ := h
  exact ⟨h1.congr e, rfl, h3⟩

theorem Owns.live {fp : List (Nat × C)} {s : List Nat} (h : m.Owns fp s) : ∀ k ∈ s, m.Live k := by
  obtain ⟨h1, rfl, -⟩ := h
  exact fun k hk => h1.live hk

theorem freed_one (h : k < m.length) : m.Freed (m.set k none) [k] := by
  refine ⟨by simp, ?_, ?_⟩
  · intro j hj
    simp only [List.mem_singleton] at hj
    subst hj
    rintro ⟨c, hc⟩
    simp [h] at hc
  · intro j hj
    simp only [List.mem_singleton] at hj
    rw [List.getElem?_set_ne (Ne.symm hj)]

theorem Freed.refl (m : Mem C) : m.Freed m [] := ⟨rfl, by simp, by simp⟩

theorem Freed.trans {s t : List Nat} (h : m.Freed m1 s) (h' : m1.Freed m2 t) : m.Freed m2 (s ++ t) := by
  refine ⟨by rw [h'.len, h.len], ?_, ?_⟩
  · intro k hk hl
    rcases List.mem_append.mp hk with hk | hk
    · by_cases ht : k ∈ t
      · exact h'.gone k ht hl
      · exact h.gone k hk (hl.congr (h'.rest k ht).symm)
    · exact h'.gone k hk hl
  · intro k hk
    simp only [List.mem_append, not_or] at hk
    rw [h'.rest k hk.2, h.rest k hk.1]

theorem Freed.congr {s t : List Nat} (h : m.Freed m1 s) (e : ∀ k, k ∈ t ↔ k ∈ s) : m.Freed m1 t :=
  ⟨h.len, fun k hk => h.gone k ((e k).mp hk), fun k hk => h.rest k (fun h' => hk ((e k).mpr h'))⟩

theorem Has.freed {fp : List (Nat × C)} {s : List Nat} (h : m.Has fp) (hf : m.Freed m1 s) (hd : ∀ k ∈ fp.map Prod.fst, k ∉ s) : m1.Has fp :=
  h.congr (fun k hk => hf.rest k (hd k hk))

theorem live_append {cs : List C} {k : Nat} (hk : m.length ≤ k) : (m ++ cs.map some).Live k ↔ k < m.length + cs.length := by
  constructor
  · intro h
    simpa using h.lt
  · intro h
    have h' : k - m.length < cs.length := by omega
    refine ⟨cs[k - m.length], ?_⟩
    rw [List.getElem?_append_right hk]
    simp [h']

theorem grown_append (m : Mem C) (cs : List C) (s : List Nat) (hs : ∀ k, k ∈ s ↔ m.length ≤ k ∧ k < m.length + cs.length) :
    m.Grown (m ++ cs.map some) s := by
  refine ⟨?_, by simp, ?_⟩
  · intro k hk
    rw [List.getElem?_append_left hk]
  · intro k
    rw [hs]
    exact and_congr_right (fun hk => (live_append hk).symm)

end Mem

namespace Hypre

/-- A pointer that a class leaves behind is null. -/
theorem get_last (m : Mem C) (c : C) : (m ++ [some c])[m.length]? = some (some c) := by simp

theorem vecDestroy_ok {m : Mem (HCell α)} {h l : Nat} {comm size : Int} {st d : CPtr}
    (h1 : m[h]? = some (some (.pvec comm size st (.to l) true false))) (h2 : m[l]? = some (some (.loc d false))) (hne : h ≠ l) :
    ∃ m', vecDestroy m h = .ok m' ∧ m.Freed m' [h, l] := by
  have hl := (List.getElem?_eq_some_iff.mp h2).1
  have hh := (List.getElem?_eq_some_iff.mp h1).1
  have h3 : (m.set l none)[h]? = some (some (.pvec comm size st (.to l) true false)) := by rw [List.getElem?_set_ne (Ne.symm hne), h1]
  refine ⟨(m.set l none).set h none, ?_, ?_⟩
  · simp only [vecDestroy, Mem.get_ok h1, ok_bind, if_true, deref, seqDestroy, Mem.get_ok h2, Mem.free_ok h2, Mem.free_ok h3, Bool.false_eq_true, if_false]
  · exact ((Mem.freed_one hl).trans (Mem.freed_one (by simpa using hh))).congr (by intro k; simp [or_comm])

end Hypre

namespace ParVecObj
open Hypre

variable {m : Mem (HCell α)}

theorem create_eq (m : Mem (HCell α)) (o : ParVecObj) (hn : o.pvect = .null) (g : Int) (hg : o.globalSize = some g) (hc : o.comm ≠ 0) :
    hypreCreate m o = .ok (m ++ [some (.loc (.to o.data) false), some (.pvec o.comm g (.to o.part) (.to m.length) true false)],
      { o with pvect := .to (m.length + 1) }) := by
  simp [hypreCreate, hypreDestroy, hn, ok_bind, hg, vecCreate, hc, Mem.alloc, setPartOwner, Mem.get, setDataOwner, setSeqOwner, localVec,
    deref, setData, vecInit, Mem.put, bind, Except.bind]

theorem create_bad (m : Mem (HCell α)) (o : ParVecObj) (hn : o.pvect = .null) (g : Int) (hg : o.globalSize = some g) (hc : o.comm = 0) :
    hypreCreate m o = .error .undefinedBehaviour := by
  simp [hypreCreate, hypreDestroy, hn, ok_bind, hg, vecCreate, hc, bind, Except.bind]

/-- The cells of a `ParVector`. -/
def cells (o : ParVecObj) (v : ParVec α) (h l : Nat) : List (Nat × HCell α) :=
  [(o.data, .reals v.data), (o.part, .ints v.part), (l, .loc (.to o.data) false), (h, .pvec o.comm v.globalSize (.to o.part) (.to l) true false)]

/-- A `ParVector` stands for a value. -/
def Stands (m : Mem (HCell α)) (o : ParVecObj) (v : ParVecVal α) (s : List Nat) : Prop :=
  match v with
  | .full c v => o.comm = c ∧ c ≠ 0 ∧ o.globalSize = some v.globalSize ∧ ∃ h l, o.pvect = .to h ∧ m.Owns (o.cells v h l) s
  | .void sized => o.comm = 0 ∧ o.pvect = .null ∧ o.globalSize = (if sized then some 0 else none) ∧
      m.Owns [(o.data, .reals []), (o.part, .ints [])] s

theorem full_new (m : Mem (HCell α)) (c : Int) (hc : c ≠ 0) (v : ParVec α) (o : ParVecObj)
    (ho : o = ⟨m.length, c, .null, m.length + 1, some v.globalSize⟩) :
    ∃ m' o' s, hypreCreate (m ++ [some (.reals v.data), some (.ints v.part)]) o = .ok (m', o') ∧ m.Grown m' s ∧
      Stands m' o' (.full c v) s := by
  subst ho
  rw [create_eq _ _ rfl v.globalSize rfl hc]
  refine ⟨_, _, [m.length, m.length + 1, m.length + 2, m.length + 3], rfl, ?_, rfl, hc, rfl, m.length + 3, m.length + 2, ?_, ?_, ?_, ?_⟩
  · have := Mem.grown_append m [.reals v.data, .ints v.part, .loc (.to m.length) false,
      .pvec c v.globalSize (.to (m.length + 1)) (.to (m.length + 2)) true false] [m.length, m.length + 1, m.length + 2, m.length + 3]
      (by intro k; simp; omega)
    simpa using this
  · simp
  · intro p hp
    simp only [cells, List.mem_cons, List.not_mem_nil, or_false] at hp
    rcases hp with rfl | rfl | rfl | rfl <;> simp
  · rfl
  · simp

theorem ofVal_eq (m : Mem (HCell α)) (c : Int) (v : ParVec α) :
    ofVal m c v = hypreCreate (m ++ [some (.reals v.data), some (.ints v.part)]) ⟨m.length, c, .null, m.length + 1, some v.globalSize⟩ := by
  simp [ofVal, Mem.alloc]

theorem void_new (m : Mem (HCell α)) (b : Bool) (g : Option Int) (hg : g = if b then some 0 else none) :
    ∃ s, m.Grown (m ++ [some (.reals []), some (.ints [])]) s ∧
      Stands (m ++ [some (.reals []), some (.ints [])]) ⟨m.length, 0, .null, m.length + 1, g⟩ (.void b : ParVecVal α) s := by
  refine ⟨[m.length, m.length + 1], ?_, rfl, rfl, hg, ?_, rfl, by simp⟩
  · have := Mem.grown_append m [HCell.reals [], .ints []] [m.length, m.length + 1] (by intro k; simp; omega)
    simpa using this
  · intro p hp
    simp only [List.mem_cons, List.not_mem_nil, or_false] at hp
    rcases hp with rfl | rfl <;> simp

theorem lawful : Lawful (cls (α := α)) ParVecVal.vals Stands where
  frame := by
    intro m m' o v s h e
    cases v with
    | full c v =>
      obtain ⟨h1, h2, h3, h, l, h4, h5⟩ := h
      exact ⟨h1, h2, h3, h, l, h4, h5.frame e⟩
    | void b =>
      obtain ⟨h1, h2, h3, h4⟩ := h
      exact ⟨h1, h2, h3, h4.frame e⟩
  live := by
    intro m o v s h
    cases v with
    | full c v =>
      obtain ⟨h1, h2, h3, h, l, h4, h5⟩ := h
      exact h5.live
    | void b =>
      obtain ⟨h1, h2, h3, h4⟩ := h
      exact h4.live
  make := by
    intro m a
    cases a with
    | none =>
      obtain ⟨s, h1, h2⟩ := void_new m false none rfl
      refine ⟨_, _, s, ?_, h1, h2⟩
      simp [cls, make, Mem.alloc]
    | val c x part =>
      have a1 : (ParVecVal.vals (α := α)).make (.val c x part) =
        (do let v ← ParVec.ofVal x part; if c = 0 then .error .undefinedBehaviour else .ok (.full c v)) := rfl
      have a2 : (cls (α := α)).make m (.val c x part) = (do let v ← ParVec.ofVal x part; ofVal m c v) := rfl
      rw [a1, a2]
      cases ParVec.ofVal x part with
      | error e => rfl
      | ok v =>
        simp only [ok_bind, ofVal_eq]
        by_cases hc : c = 0
        · rw [if_pos hc]
          exact create_bad _ _ rfl v.globalSize rfl hc
        · rw [if_neg hc]
          exact full_new m c hc v _ rfl
    | vect c x part =>
      have a1 : (ParVecVal.vals (α := α)).make (.vect c x part) =
        (do let v ← ParVec.ofVect x part; if c = 0 then .error .undefinedBehaviour else .ok (.full c v)) := rfl
      have a2 : (cls (α := α)).make m (.vect c x part) = (do let v ← ParVec.ofVect x part; ofVal m c v) := rfl
      rw [a1, a2]
      cases ParVec.ofVect x part with
      | error e => rfl
      | ok v =>
        simp only [ok_bind, ofVal_eq]
        by_cases hc : c = 0
        · rw [if_pos hc]
          exact create_bad _ _ rfl v.globalSize rfl hc
        · rw [if_neg hc]
          exact full_new m c hc v _ rfl
  copy := by
    intro m o v s h
    cases v with
    | full c v =>
      obtain ⟨h1, h2, h3, h, l, h4, h5, -, -⟩ := h
      have a1 : m[o.data]? = some (some (.reals v.data)) := h5 (o.data, .reals v.data) (by simp [cells])
      have a2 : m[o.part]? = some (some (.ints v.part)) := h5 (o.part, .ints v.part) (by simp [cells])
      have a3 : o.part < m.length := (List.getElem?_eq_some_iff.mp a2).1
      have e : copy m o = hypreCreate (m ++ [some (.reals v.data), some (.ints v.part)]) ⟨m.length, o.comm, .null, m.length + 1, some v.globalSize⟩ := by
        have a4 : (m ++ [some (.reals v.data)])[o.part]? = some (some (.ints v.part)) := by rw [List.getElem?_append_left a3, a2]
        simp [copy, reals, deref, ok_bind, Mem.get_ok a1, Mem.alloc, ints, Mem.get_ok a4, h3]
      show ∃ m' o' s', copy m o = .ok (m', o') ∧ m.Grown m' s' ∧ Stands m' o' (.full c v) s'
      rw [e]
      exact full_new m c h2 v _ (by rw [h1])
    | void b =>
      obtain ⟨h1, h2, h3, h5, -, -⟩ := h
      have a1 : m[o.data]? = some (some (.reals [])) := h5 (o.data, .reals []) (by simp)
      have a2 : m[o.part]? = some (some (.ints [])) := h5 (o.part, .ints []) (by simp)
      have a3 : o.part < m.length := (List.getElem?_eq_some_iff.mp a2).1
      have a4 : (m ++ [some (.reals [])])[o.part]? = some (some (.ints [])) := by rw [List.getElem?_append_left a3, a2]
      show copy m o = .error .undefinedBehaviour
      cases b with
      | false => simp [copy, reals, deref, ok_bind, Mem.get_ok a1, Mem.alloc, ints, Mem.get_ok a4, h3]
      | true =>
        simp only [copy, reals, deref, ok_bind, Mem.get_ok a1, Mem.alloc, ints, Mem.get_ok a4, h3, if_true]
        exact create_bad _ _ rfl 0 rfl h1
  blank := by
    intro m
    have e : (cls (α := α)).blank m = (m ++ [some (.reals []), some (.ints [])], ⟨m.length, 0, .null, m.length + 1, some 0⟩) := by
      simp [cls, blank, Mem.alloc]
    rw [e]
    exact void_new m true (some 0) rfl
  swap := fun _ _ => rfl
  destroy := by
    intro m o v s h
    show ∃ m', destroy m o = .ok m' ∧ m.Freed m' s
    cases v with
    | full c v =>
      obtain ⟨h1, h2, h3, h, l, h4, h5, rfl, hd⟩ := h
      simp only [cells, Mem.has_cons] at h5
      obtain ⟨b1, b2, b3, b4, -⟩ := h5
      simp [cells] at hd
      obtain ⟨m1, e1, f1⟩ := vecDestroy_ok b4 b3 (fun e => hd.2.2 e.symm)
      have c2 : m1[o.part]? = some (some (.ints v.part)) := by rw [f1.rest _ (by simp [hd])]; exact b2
      have c1 : (m1.set o.part none)[o.data]? = some (some (.reals v.data)) := by
        rw [List.getElem?_set_ne (by tauto), f1.rest _ (by simp [hd])]; exact b1
      refine ⟨(m1.set o.part none).set o.data none, ?_, ?_⟩
      · simp only [destroy, hypreDestroy, h4, e1, ok_bind, Mem.free_ok c2, Mem.free_ok c1]
      · have d1 := (List.getElem?_eq_some_iff.mp c1).1
        have d2 := (List.getElem?_eq_some_iff.mp c2).1
        refine ((f1.trans (Mem.freed_one d2)).trans (Mem.freed_one d1)).congr ?_
        intro k
        simp [cells]
        tauto
    | void b =>
      obtain ⟨h1, h2, h3, h5, rfl, hd⟩ := h
      simp only [Mem.has_cons] at h5
      obtain ⟨b1, b2, -⟩ := h5
      simp at hd
      have c1 : (m.set o.part none)[o.data]? = some (some (.reals [])) := by rw [List.getElem?_set_ne (by tauto)]; exact b1
      refine ⟨(m.set o.part none).set o.data none, ?_, ?_⟩
      · simp only [destroy, hypreDestroy, h2, ok_bind, Mem.free_ok b2, Mem.free_ok c1]
      · have d1 := (List.getElem?_eq_some_iff.mp c1).1
        have d2 := (List.getElem?_eq_some_iff.mp b2).1
        refine ((Mem.freed_one d2).trans (Mem.freed_one d1)).congr ?_
        intro k
        simp
        tauto
  update := by
    intro m o v s u h
    cases v with
    | full c v =>
      obtain ⟨h1, h2, h3, h, l, h4, h5, rfl, hd⟩ := h
      simp only [cells, Mem.has_cons] at h5
      obtain ⟨b1, b2, b3, b4, -⟩ := h5
      have a1 : (ParVecVal.vals (α := α)).update (.full c v) u = (do let data ← vwr v.data u.1 u.2; .ok (.full c { v with data := data })) := rfl
      have a2 : (cls (α := α)).update m o u = update m o u := rfl
      rw [a1, a2]
      have e : update m o u = (do let data ← vwr v.data u.1 u.2; m.put o.data (.reals data)) := by
        simp [update, reals, deref, ok_bind, Mem.get_ok b1]
      rw [e]
      cases vwr v.data u.1 u.2 with
      | error e => rfl
      | ok data =>
        simp only [ok_bind, Mem.put_ok b1]
        have d1 := (List.getElem?_eq_some_iff.mp b1).1
        have hd' := hd
        simp [cells] at hd
        have hne : ∀ k, k ≠ o.data → (m.set o.data (some (.reals data)))[k]? = m[k]? := fun k hk => List.getElem?_set_ne (Ne.symm hk)
        have has : Mem.Has (m.set o.data (some (.reals data))) (o.cells { v with data := data } h l) := by
          simp only [cells, Mem.has_cons]
          refine ⟨by simp [d1], ?_, ?_, ?_, by simp [Mem.Has]⟩
          · rw [hne _ (by tauto)]; exact b2
          · rw [hne _ (by tauto)]; exact b3
          · rw [hne _ (by tauto)]; exact b4
        refine ⟨_, rfl, ⟨by simp, ?_, ?_⟩, h1, h2, h3, h, l, h4, has, rfl, hd'⟩
        · intro k hk
          exact has.live hk
        · intro k hk
          apply hne
          rintro rfl
          exact hk (by simp [cells])
    | void b =>
      obtain ⟨h1, h2, h3, h5, rfl, hd⟩ := h
      simp only [Mem.has_cons] at h5
      obtain ⟨b1, b2, -⟩ := h5
      have hv : ∃ e, vwr ([] : List α) u.1 u.2 = .error e := by
        unfold vwr wr cassert
        by_cases h0 : u.1 < 0
        · exact ⟨.outOfBounds, by simp [h0, bind, Except.bind]⟩
        · exact ⟨.assertFail, by simp [h0, bind, Except.bind]⟩
      obtain ⟨e, he⟩ := hv
      simp [ParVecVal.vals, ParVecVal.update, cls, update, reals, deref, Mem.get_ok b1, he, bind, Except.bind]

end ParVecObj
end Linalg
