import Verif.Spec.Life
import Verif.Cpp.Lemmas
import Mathlib.Logic.Equiv.Basic
import Mathlib.Logic.Function.Basic

/-!
# A class whose operations treat their own cells well behaves as a class of values
-/

namespace Linalg
open Cpp

variable {C O V A U : Type}

namespace Mem

/-- There are new cells, at the addresses `s`; the old ones are as before. -/
structure Grown (m m' : Mem C) (s : List Nat) : Prop where
  old : ∀ k < m.length, m'[k]? = m[k]?
  len : m.length ≤ m'.length
  new : ∀ k, k ∈ s ↔ m.length ≤ k ∧ m'.Live k

/-- The cells at the addresses `s` are given back; the others are as before. -/
structure Freed (m m' : Mem C) (s : List Nat) : Prop where
  len : m'.length = m.length
  gone : ∀ k ∈ s, ¬ m'.Live k
  rest : ∀ k, k ∉ s → m'[k]? = m[k]?

/-- Only the cells at the addresses `s` have changed. -/
structure Changed (m m' : Mem C) (s : List Nat) : Prop where
  len : m'.length = m.length
  live : ∀ k ∈ s, m'.Live k
  rest : ∀ k, k ∉ s → m'[k]? = m[k]?

theorem Live.lt {m : Mem C} {k : Nat} (h : m.Live k) : k < m.length := by
  obtain ⟨c, h⟩ := h
  exact (List.getElem?_eq_some_iff.mp h).1

theorem Live.congr {m m' : Mem C} {k : Nat} (h : m.Live k) (e : m'[k]? = m[k]?) : m'.Live k := by
  obtain ⟨c, h⟩ := h
  exact ⟨c, by rw [e, h]⟩

end Mem

/-- What a class must do with its own cells to be the class of values `S`. -/
structure Lawful (K : Cls C O A U) (S : LifeVals V A U) (R : Mem C → O → V → List Nat → Prop) : Prop where
  frame : ∀ {m m' o v s}, R m o v s → (∀ k ∈ s, m'[k]? = m[k]?) → R m' o v s
  live : ∀ {m o v s}, R m o v s → ∀ k ∈ s, m.Live k
  make : ∀ (m : Mem C) (a : A), match S.make a with
    | .ok v => ∃ m' o s, K.make m a = .ok (m', o) ∧ m.Grown m' s ∧ R m' o v s
    | .error e => K.make m a = .error e
  copy : ∀ {m o v s}, R m o v s → match S.copy v with
    | .ok v' => ∃ m' o' s', K.copy m o = .ok (m', o') ∧ m.Grown m' s' ∧ R m' o' v' s'
    | .error e => K.copy m o = .error e
  blank : ∀ m : Mem C, ∃ s, m.Grown (K.blank m).1 s ∧ R (K.blank m).1 (K.blank m).2 S.blank s
  swap : ∀ o p : O, K.swap o p = (p, o)
  destroy : ∀ {m o v s}, R m o v s → match S.destroy v with
    | .ok _ => ∃ m', K.destroy m o = .ok m' ∧ m.Freed m' s
    | .error e => K.destroy m o = .error e
  update : ∀ {m o v s} (u : U), R m o v s → match S.update v u with
    | .ok v' => ∃ m', K.update m o u = .ok m' ∧ m.Changed m' s ∧ R m' o v' s
    | .error e => K.update m o u = .error e

namespace Lawful

/-- `LifeStore.Holds` for functions. -/
structure H (R : Mem C → O → V → List Nat → Prop) (m : Mem C) (g : Nat → Option O) (v : Nat → Option V) (own : Nat → List Nat) : Prop where
  here : ∀ i o, g i = some o → ∃ x, v i = some x ∧ R m o x (own i)
  gone : ∀ i, g i = none → v i = none ∧ own i = []
  apart : ∀ i j k, k ∈ own i → k ∈ own j → i = j
  all : ∀ k, m.Live k → ∃ i, k ∈ own i

variable {K : Cls C O A U} {S : LifeVals V A U} {R : Mem C → O → V → List Nat → Prop}
variable {m m' : Mem C} {g : Nat → Option O} {v : Nat → Option V} {own : Nat → List Nat}

theorem H.live (L : Lawful K S R) (h : H R m g v own) {i k : Nat} (hk : k ∈ own i) : m.Live k := by
  cases hg : g i with
  | none => rw [(h.gone i hg).2] at hk; cases hk
  | some o =>
    obtain ⟨x, -, hR⟩ := h.here i o hg
    exact L.live hR k hk

theorem H.add (L : Lawful K S R) (h : H R m g v own) {i : Nat} (hi : g i = none) {o : O} {x : V} {s : List Nat} (hg : m.Grown m' s)
    (hR : R m' o x s) : H R m' (Function.update g i (some o)) (Function.update v i (some x)) (Function.update own i s) := by
  have old : ∀ j k, k ∈ own j → m'[k]? = m[k]? := fun j k hk => hg.old k (h.live L hk).lt
  refine ⟨?_, ?_, ?_, ?_⟩
  · intro j p hp
    by_cases hj : j = i
    · subst hj
      rw [Function.update_self] at hp ⊢
      cases hp
      exact ⟨x, rfl, by rw [Function.update_self]; exact hR⟩
    · rw [Function.update_of_ne hj] at hp ⊢
      obtain ⟨y, hy, hR'⟩ := h.here j p hp
      exact ⟨y, hy, by rw [Function.update_of_ne hj]; exact L.frame hR' (fun k hk => old j k hk)⟩
  · intro j hp
    by_cases hj : j = i
    · subst hj
      rw [Function.update_self] at hp
      cases hp
    · rw [Function.update_of_ne hj] at hp ⊢
      rw [Function.update_of_ne hj]
      exact h.gone j hp
  · intro a b k ha hb
    by_cases hai : a = i <;> by_cases hbi : b = i
    · rw [hai, hbi]
    · subst hai
      rw [Function.update_self] at ha
      rw [Function.update_of_ne hbi] at hb
      have h1 := ((hg.new k).mp ha).1
      have h2 := (h.live L hb).lt
      omega
    · subst hbi
      rw [Function.update_self] at hb
      rw [Function.update_of_ne hai] at ha
      have h1 := ((hg.new k).mp hb).1
      have h2 := (h.live L ha).lt
      omega
    · rw [Function.update_of_ne hai] at ha
      rw [Function.update_of_ne hbi] at hb
      exact h.apart a b k ha hb
  · intro k hk
    by_cases hl : m.length ≤ k
    · exact ⟨i, by rw [Function.update_self]; exact (hg.new k).mpr ⟨hl, hk⟩⟩
    · obtain ⟨j, hj⟩ := h.all k (hk.congr (hg.old k (by omega)).symm)
      refine ⟨j, ?_⟩
      rw [Function.update_of_ne]
      · exact hj
      · rintro rfl
        rw [(h.gone j hi).2] at hj
        cases hj

theorem H.remove (L : Lawful K S R) (h : H R m g v own) {i : Nat} (hf : m.Freed m' (own i)) :
    H R m' (Function.update g i none) (Function.update v i none) (Function.update own i []) := by
  refine ⟨?_, ?_, ?_, ?_⟩
  · intro j p hp
    by_cases hj : j = i
    · subst hj
      rw [Function.update_self] at hp
      cases hp
    · rw [Function.update_of_ne hj] at hp ⊢
      obtain ⟨y, hy, hR'⟩ := h.here j p hp
      exact ⟨y, hy, by
        rw [Function.update_of_ne hj]
        exact L.frame hR' (fun k hk => hf.rest k (fun hk' => hj (h.apart j i k hk hk')))⟩
  · intro j hp
    by_cases hj : j = i
    · subst hj
      rw [Function.update_self, Function.update_self]
      exact ⟨rfl, rfl⟩
    · rw [Function.update_of_ne hj] at hp ⊢
      rw [Function.update_of_ne hj]
      exact h.gone j hp
  · intro a b k ha hb
    by_cases hai : a = i
    · subst hai
      rw [Function.update_self] at ha
      cases ha
    · by_cases hbi : b = i
      · subst hbi
        rw [Function.update_self] at hb
        cases hb
      · rw [Function.update_of_ne hai] at ha
        rw [Function.update_of_ne hbi] at hb
        exact h.apart a b k ha hb
  · intro k hk
    have hn : k ∉ own i := fun hk' => hf.gone k hk' hk
    obtain ⟨j, hj⟩ := h.all k (hk.congr (hf.rest k hn).symm)
    refine ⟨j, ?_⟩
    rw [Function.update_of_ne]
    · exact hj
    · rintro rfl
      exact hn hj

theorem H.change (L : Lawful K S R) (h : H R m g v own) {i : Nat} {o : O} {x : V} (hi : g i = some o) (hc : m.Changed m' (own i))
    (hR : R m' o x (own i)) : H R m' g (Function.update v i (some x)) own := by
  refine ⟨?_, ?_, h.apart, ?_⟩
  · intro j p hp
    by_cases hj : j = i
    · subst hj
      rw [hi] at hp
      cases hp
      exact ⟨x, by rw [Function.update_self], hR⟩
    · obtain ⟨y, hy, hR'⟩ := h.here j p hp
      exact ⟨y, by rw [Function.update_of_ne hj]; exact hy, L.frame hR' (fun k hk => hc.rest k (fun hk' => hj (h.apart j i k hk hk')))⟩
  · intro j hp
    have hj : j ≠ i := by
      rintro rfl
      rw [hi] at hp
      cases hp
    rw [Function.update_of_ne hj]
    exact h.gone j hp
  · intro k hk
    by_cases hn : k ∈ own i
    · exact ⟨i, hn⟩
    · exact h.all k (hk.congr (hc.rest k hn).symm)

theorem H.swap (h : H R m g v own) (i j : Nat) :
    H R m (g ∘ Equiv.swap i j) (v ∘ Equiv.swap i j) (own ∘ Equiv.swap i j) := by
  refine ⟨fun a o ha => h.here _ o ha, fun a ha => h.gone _ ha, ?_, ?_⟩
  · intro a b k ha hb
    exact (Equiv.swap i j).injective (h.apart _ _ k ha hb)
  · intro k hk
    obtain ⟨a, ha⟩ := h.all k hk
    exact ⟨Equiv.swap i j a, by simpa using ha⟩

/-! Reading the lists of named things. -/

theorem join_append {β : Type} (l : List (Option β)) (x : Option β) :
    (fun i => (l ++ [x])[i]?.join) = Function.update (fun i => l[i]?.join) l.length x := by
  funext i
  by_cases h : i = l.length
  · subst h; simp
  · rw [Function.update_of_ne h]
    by_cases h' : i < l.length
    · rw [List.getElem?_append_left h']
    · rw [List.getElem?_eq_none (by simp; omega), List.getElem?_eq_none (by omega)]

theorem join_set {β : Type} (l : List (Option β)) (k : Nat) (hk : k < l.length) (x : Option β) :
    (fun i => (l.set k x)[i]?.join) = Function.update (fun i => l[i]?.join) k x := by
  funext i
  by_cases h : i = k
  · subst h; simp [hk]
  · rw [Function.update_of_ne h, List.getElem?_set_ne (Ne.symm h)]

theorem join_lt {β : Type} {l : List (Option β)} {i : Nat} {x : β} (h : l[i]?.join = some x) : i < l.length := by
  by_contra hc
  rw [List.getElem?_eq_none (by omega)] at h
  cases h

theorem update_swap {β : Type} (f : Nat → β) (i j : Nat) (a b : β) (ha : f i = a) (hb : f j = b) :
    Function.update (Function.update f j a) i b = f ∘ Equiv.swap i j := by
  funext k
  by_cases h : k = i
  · subst h; simp [hb]
  · rw [Function.update_of_ne h]
    by_cases h' : k = j
    · subst h'; simp [ha]
    · rw [Function.update_of_ne h', Function.comp, Equiv.swap_apply_of_ne_of_ne h h']

/-- A new thing at `n` takes the place of the one at `i`, which goes. -/
theorem update_replace {β : Type} (f : Nat → β) (i n : Nat) (p z : β) (hn : f n = z) (hin : i ≠ n) :
    Function.update (Function.update f n p ∘ Equiv.swap i n) n z = Function.update f i p := by
  funext k
  by_cases h : k = n
  · subst h
    rw [Function.update_self, Function.update_of_ne (Ne.symm hin), hn]
  · rw [Function.update_of_ne h]
    by_cases h' : k = i
    · subst h'; simp
    · rw [Function.update_of_ne h', Function.comp, Equiv.swap_apply_of_ne_of_ne h' h, Function.update_of_ne h]

theorem obj_eq (w : LifeStore C O) (i : Nat) :
    w.obj i = match w.objs[i]?.join with | some s => .ok s | none => .error .undefinedBehaviour := by
  unfold LifeStore.obj
  rcases w.objs[i]? with _ | _ | s <;> rfl

theorem get_eq (vs : List (Option V)) (i : Nat) :
    LifeVals.get vs i = match vs[i]?.join with | some A => .ok A | none => .error .undefinedBehaviour := by
  unfold LifeVals.get
  rcases vs[i]? with _ | _ | s <;> rfl

/-- `LifeStore.Holds`, by functions. -/
def W (R : Mem C → O → V → List Nat → Prop) (w : LifeStore C O) (vs : List (Option V)) : Prop :=
  w.objs.length = vs.length ∧ ∃ own, H R w.mem (fun i => w.objs[i]?.join) (fun i => vs[i]?.join) own

theorem holds_iff (L : Lawful K S R) (w : LifeStore C O) (vs : List (Option V)) : w.Holds R vs ↔ W R w vs := by
  unfold W LifeStore.Holds
  refine and_congr_right (fun _ => exists_congr (fun own => ?_))
  constructor
  · rintro ⟨h1, h2, h3⟩
    refine ⟨?_, ?_, h2, h3⟩
    · intro i o ho
      have := h1 i
      rw [ho] at this
      cases hv : vs[i]?.join with
      | none => rw [hv] at this; exact this.elim
      | some x => rw [hv] at this; exact ⟨x, rfl, this.1⟩
    · intro i ho
      have := h1 i
      rw [ho] at this
      cases hv : vs[i]?.join with
      | none => rw [hv] at this; exact ⟨rfl, this⟩
      | some x => rw [hv] at this; exact this.elim
  · intro h
    refine ⟨?_, h.apart, h.all⟩
    intro i
    cases ho : w.objs[i]?.join with
    | none =>
      obtain ⟨h1, h2⟩ := h.gone i ho
      rw [h1]
      exact h2
    | some o =>
      obtain ⟨x, h1, h2⟩ := h.here i o ho
      rw [h1]
      exact ⟨h2, fun k hk => h.live L hk⟩

variable {w : LifeStore C O} {vs : List (Option V)}

/-- Both find an object, or neither. -/
theorem W.find (h : W R w vs) (i : Nat) :
    (w.obj i = .error .undefinedBehaviour ∧ LifeVals.get vs i = .error .undefinedBehaviour) ∨
    ∃ o x, w.obj i = .ok o ∧ LifeVals.get vs i = .ok x ∧ w.objs[i]?.join = some o ∧ vs[i]?.join = some x := by
  obtain ⟨-, own, h⟩ := h
  rw [obj_eq, get_eq]
  rcases hg : w.objs[i]?.join with _ | s
  · left
    have := (h.gone i hg).1
    rw [this]
    exact ⟨rfl, rfl⟩
  · right
    obtain ⟨x, hx, -⟩ := h.here i s hg
    rw [hx]
    exact ⟨s, x, rfl, rfl, rfl, rfl⟩

theorem H.own_nil (h : H R m g v own) {i : Nat} (hi : g i = none) : own i = [] := (h.gone i hi).2

/-- The parameter of `operator=`: made, swapped in, and destroyed with the old contents. -/
theorem H.replace (L : Lawful K S R) (h : H R m g v own) {i n : Nat} {s p : O} {x y : V} {t : List Nat} {m1 : Mem C} (hn : g n = none) (hs : g i = some s)
    (hx : v i = some x) (hg : m.Grown m1 t) (hp : R m1 p y t) : match S.destroy x with
    | .ok _ => ∃ m2 own', K.destroy m1 s = .ok m2 ∧ H R m2 (Function.update g i (some p)) (Function.update v i (some y)) own'
    | .error e => K.destroy m1 s = .error e := by
  have hin : i ≠ n := by rintro rfl; rw [hs] at hn; cases hn
  have h1 := h.add L hn hg hp
  obtain ⟨x', hx', hR⟩ := h1.here i s (by rw [Function.update_of_ne hin]; exact hs)
  rw [Function.update_of_ne hin, hx] at hx'
  cases hx'
  have h2 := L.destroy hR
  cases hd : S.destroy x with
  | error e => rw [hd] at h2; exact h2
  | ok u =>
    rw [hd] at h2
    obtain ⟨m2, e2, hf⟩ := h2
    have h3 := h1.swap i n
    have h4 := h3.remove L (i := n) (m' := m2) (by simpa using hf)
    rw [update_replace g i n (some p) none hn hin, update_replace v i n (some y) none (h.gone n hn).1 hin] at h4
    exact ⟨m2, _, e2, h4⟩

theorem step_holds (L : Lawful K S R) (h : W R w vs) (op : LifeStmt A U) : match S.step vs op with
    | .ok vs' => ∃ w', LifeStore.step K w op = .ok w' ∧ W R w' vs'
    | .error e => LifeStore.step K w op = .error e := by
  have hlen := h.1
  have hfind := h.find
  obtain ⟨-, own, hH⟩ := h
  have hN : ∀ {β : Type} (l : List (Option β)), (fun i : Nat => l[i]?.join) l.length = none := by
    intro β l
    simp
  -- a new object at the end
  have new : ∀ {m' : Mem C} {o : O} {x : V} {s : List Nat}, w.mem.Grown m' s → R m' o x s → W R ⟨m', w.objs ++ [some o]⟩ (vs ++ [some x]) := by
    intro m' o x s hg hR
    refine ⟨by simp [hlen], Function.update own w.objs.length s, ?_⟩
    have h1 := hH.add L (hN w.objs) hg hR
    show H R m' (fun i => (w.objs ++ [some o])[i]?.join) (fun i => (vs ++ [some x])[i]?.join) _
    rw [join_append, join_append, ← hlen]
    exact h1
  cases op with
  | make a =>
    have h1 := L.make w.mem a
    cases e : S.make a with
    | error e' =>
      rw [e] at h1
      simp [LifeVals.step, LifeStore.step, e, h1, bind, Except.bind]
    | ok x =>
      rw [e] at h1
      obtain ⟨m', o, s, e1, hg, hR⟩ := h1
      simp only [LifeVals.step, LifeStore.step, e, e1, ok_bind]
      exact ⟨_, rfl, new hg hR⟩
  | copy i =>
    rcases hfind i with ⟨e1, e2⟩ | ⟨o, x, e1, e2, e3, e4⟩
    · simp [LifeVals.step, LifeStore.step, e1, e2, bind, Except.bind]
    · obtain ⟨x', hx', hR⟩ := hH.here i o e3
      rw [e4] at hx'
      cases hx'
      have h1 := L.copy hR
      cases e : S.copy x with
      | error e' =>
        rw [e] at h1
        simp [LifeVals.step, LifeStore.step, e1, e2, e, h1, bind, Except.bind]
      | ok y =>
        rw [e] at h1
        obtain ⟨m', o', s, e5, hg, hR'⟩ := h1
        simp only [LifeVals.step, LifeStore.step, e1, e2, e, e5, ok_bind]
        exact ⟨_, rfl, new hg hR'⟩
  | move i =>
    rcases hfind i with ⟨e1, e2⟩ | ⟨o, x, e1, e2, e3, e4⟩
    · simp [LifeVals.step, LifeStore.step, e1, e2, bind, Except.bind]
    · obtain ⟨s, hg, hR⟩ := L.blank w.mem
      simp only [LifeVals.step, LifeStore.step, e1, e2, ok_bind, L.swap]
      refine ⟨_, rfl, by simp [hlen], Function.update own w.objs.length s ∘ Equiv.swap i w.objs.length, ?_⟩
      have h1 := (hH.add L (hN w.objs) hg hR).swap i w.objs.length
      have hi := join_lt e3
      have hi' := join_lt e4
      show H R _ (fun j => (w.objs.set i (some (K.blank w.mem).2) ++ [some o])[j]?.join)
        (fun j => (vs.set i (some S.blank) ++ [some x])[j]?.join) _
      rw [join_append, join_append, join_set _ _ hi, join_set _ _ hi', List.length_set, List.length_set, ← hlen]
      have a1 : Function.update (Function.update (fun j => w.objs[j]?.join) i (some (K.blank w.mem).2)) w.objs.length (some o) =
          Function.update (fun j => w.objs[j]?.join) w.objs.length (some (K.blank w.mem).2) ∘ Equiv.swap i w.objs.length := by
        rw [← update_swap _ i w.objs.length (some o) (some (K.blank w.mem).2)]
        · rw [Function.update_idem, Function.update_comm (by omega)]
        · rw [Function.update_of_ne (by omega)]; exact e3
        · rw [Function.update_self]
      have a2 : Function.update (Function.update (fun j => vs[j]?.join) i (some S.blank)) w.objs.length (some x) =
          Function.update (fun j => vs[j]?.join) w.objs.length (some S.blank) ∘ Equiv.swap i w.objs.length := by
        rw [← update_swap _ i w.objs.length (some x) (some S.blank)]
        · rw [Function.update_idem, Function.update_comm (by omega)]
        · rw [Function.update_of_ne (by omega)]; exact e4
        · rw [Function.update_self]
      rw [a1, a2]
      exact h1
  | assign i j =>
    rcases hfind i with ⟨e1, e2⟩ | ⟨o, x, e1, e2, e3, e4⟩
    · simp [LifeVals.step, LifeStore.step, e1, e2, bind, Except.bind]
    rcases hfind j with ⟨f1, f2⟩ | ⟨p, y, f1, f2, f3, f4⟩
    · simp [LifeVals.step, LifeStore.step, e1, e2, f1, f2, bind, Except.bind]
    obtain ⟨y', hy', hR⟩ := hH.here j p f3
    rw [f4] at hy'
    cases hy'
    have h1 := L.copy hR
    cases e : S.copy y with
    | error e' =>
      rw [e] at h1
      simp [LifeVals.step, LifeStore.step, e1, e2, f1, f2, e, h1, bind, Except.bind]
    | ok z =>
      rw [e] at h1
      obtain ⟨m1, q, s, e5, hg, hR'⟩ := h1
      have h2 := hH.replace L (hN w.objs) e3 e4 hg hR'
      cases hd : S.destroy x with
      | error e' =>
        rw [hd] at h2
        simp [LifeVals.step, LifeStore.step, e1, e2, f1, f2, e, e5, L.swap, hd, h2, bind, Except.bind]
      | ok u =>
        rw [hd] at h2
        obtain ⟨m2, own', e6, h3⟩ := h2
        simp only [LifeVals.step, LifeStore.step, e1, e2, f1, f2, e, e5, ok_bind, L.swap, hd, e6]
        refine ⟨_, rfl, by simp [hlen], own', ?_⟩
        show H R m2 (fun k => (w.objs.set i (some q))[k]?.join) (fun k => (vs.set i (some z))[k]?.join) own'
        rw [join_set _ _ (join_lt e3), join_set _ _ (join_lt e4)]
        exact h3
  | assignMove i j =>
    rcases hfind i with ⟨e1, e2⟩ | ⟨o, x, e1, e2, e3, e4⟩
    · simp [LifeVals.step, LifeStore.step, e1, e2, bind, Except.bind]
    rcases hfind j with ⟨f1, f2⟩ | ⟨p, y, f1, f2, f3, f4⟩
    · simp [LifeVals.step, LifeStore.step, e1, e2, f1, f2, bind, Except.bind]
    obtain ⟨s, hg, hR⟩ := L.blank w.mem
    have hj := join_lt f3
    have hj' := join_lt f4
    have hi := join_lt e3
    -- the new object is at the end, `j` is blank
    have h1 := (hH.add L (hN w.objs) hg hR).swap j w.objs.length
    have a1 : Function.update (Function.update (fun j => w.objs[j]?.join) j (some (K.blank w.mem).2)) w.objs.length (some p) =
        Function.update (fun j => w.objs[j]?.join) w.objs.length (some (K.blank w.mem).2) ∘ Equiv.swap j w.objs.length := by
      rw [← update_swap _ j w.objs.length (some p) (some (K.blank w.mem).2)]
      · rw [Function.update_idem, Function.update_comm (by omega)]
      · rw [Function.update_of_ne (by omega)]; exact f3
      · rw [Function.update_self]
    have a2 : Function.update (Function.update (fun j => vs[j]?.join) j (some S.blank)) w.objs.length (some y) =
        Function.update (fun j => vs[j]?.join) w.objs.length (some S.blank) ∘ Equiv.swap j w.objs.length := by
      rw [← update_swap _ j w.objs.length (some y) (some S.blank)]
      · rw [Function.update_idem, Function.update_comm (by omega)]
      · rw [Function.update_of_ne (by omega)]; exact f4
      · rw [Function.update_self]
    rw [← a1, ← a2, ← join_set _ _ hj, ← join_set _ _ hj'] at h1
    -- what is at `i` now
    obtain ⟨o', ho'⟩ : ∃ o', (w.objs.set j (some (K.blank w.mem).2))[i]?.join = some o' := by
      by_cases hij : i = j
      · subst hij; exact ⟨(K.blank w.mem).2, by simp [hi]⟩
      · rw [List.getElem?_set_ne (Ne.symm hij)]; exact ⟨o, e3⟩
    have g1 : LifeStore.obj ⟨(K.blank w.mem).1, w.objs.set j (some (K.blank w.mem).2)⟩ i = .ok o' := by
      rw [obj_eq]; simp only [ho']
    obtain ⟨x', hx', hRx⟩ := h1.here i o' (by rw [Function.update_of_ne (by omega)]; exact ho')
    rw [Function.update_of_ne (by omega)] at hx'
    have g2 : LifeVals.get (vs.set j (some S.blank)) i = .ok x' := by
      rw [get_eq]; rw [hx']
    have h2 := L.destroy hRx
    cases hd : S.destroy x' with
    | error e' =>
      rw [hd] at h2
      simp [LifeVals.step, LifeStore.step, e1, e2, f1, f2, L.swap, g1, g2, hd, h2, bind, Except.bind]
    | ok u =>
      rw [hd] at h2
      obtain ⟨m2, e6, hf⟩ := h2
      simp only [LifeVals.step, LifeStore.step, e1, e2, f1, f2, ok_bind, L.swap, g1, g2, hd, e6]
      have hin : i ≠ w.objs.length := by omega
      have h3 := (h1.swap i w.objs.length).remove L (i := w.objs.length) (m' := m2) (by simpa using hf)
      rw [update_replace _ i w.objs.length (some p) none (by simp) hin, update_replace _ i w.objs.length (some y) none (by simp [hlen]) hin] at h3
      revert h3
      generalize Function.update (_ ∘ Equiv.swap i w.objs.length) w.objs.length [] = own3
      intro h3
      refine ⟨_, rfl, by simp [hlen], own3, ?_⟩
      show H R m2 (fun k => ((w.objs.set j (some (K.blank w.mem).2)).set i (some p))[k]?.join)
        (fun k => ((vs.set j (some S.blank)).set i (some y))[k]?.join) _
      rw [join_set _ i (by simpa using hi), join_set (vs.set j (some S.blank)) i (by simp; omega)]
      exact h3
  | swap i j =>
    rcases hfind i with ⟨e1, e2⟩ | ⟨o, x, e1, e2, e3, e4⟩
    · simp [LifeVals.step, LifeStore.step, e1, e2, bind, Except.bind]
    rcases hfind j with ⟨f1, f2⟩ | ⟨p, y, f1, f2, f3, f4⟩
    · simp [LifeVals.step, LifeStore.step, e1, e2, f1, f2, bind, Except.bind]
    simp only [LifeVals.step, LifeStore.step, e1, e2, f1, f2, ok_bind, L.swap]
    refine ⟨_, rfl, by simp [hlen], own ∘ Equiv.swap i j, ?_⟩
    have hj := join_lt f3
    have hj' := join_lt f4
    have hi := join_lt e3
    have h1 := hH.swap i j
    show H R w.mem (fun k => ((w.objs.set j (some o)).set i (some p))[k]?.join) (fun k => ((vs.set j (some x)).set i (some y))[k]?.join) _
    rw [join_set _ i (by simpa using hi), join_set _ j hj, join_set (vs.set j (some x)) i (by simp; omega), join_set _ j hj',
      update_swap _ i j _ _ e3 f3, update_swap _ i j _ _ e4 f4]
    exact h1
  | destroy i =>
    rcases hfind i with ⟨e1, e2⟩ | ⟨o, x, e1, e2, e3, e4⟩
    · simp [LifeVals.step, LifeStore.step, e1, e2, bind, Except.bind]
    obtain ⟨x', hx', hR⟩ := hH.here i o e3
    rw [e4] at hx'
    cases hx'
    have h1 := L.destroy hR
    cases hd : S.destroy x with
    | error e' =>
      rw [hd] at h1
      simp [LifeVals.step, LifeStore.step, e1, e2, hd, h1, bind, Except.bind]
    | ok u =>
      rw [hd] at h1
      obtain ⟨m', e5, hf⟩ := h1
      simp only [LifeVals.step, LifeStore.step, e1, e2, hd, e5, ok_bind]
      refine ⟨_, rfl, by simp [hlen], Function.update own i [], ?_⟩
      show H R m' (fun k => (w.objs.set i none)[k]?.join) (fun k => (vs.set i none)[k]?.join) _
      rw [join_set _ _ (join_lt e3), join_set _ _ (join_lt e4)]
      exact hH.remove L hf
  | update i u =>
    rcases hfind i with ⟨e1, e2⟩ | ⟨o, x, e1, e2, e3, e4⟩
    · simp [LifeVals.step, LifeStore.step, e1, e2, bind, Except.bind]
    obtain ⟨x', hx', hR⟩ := hH.here i o e3
    rw [e4] at hx'
    cases hx'
    have h1 := L.update u hR
    cases hd : S.update x u with
    | error e' =>
      rw [hd] at h1
      simp [LifeVals.step, LifeStore.step, e1, e2, hd, h1, bind, Except.bind]
    | ok y =>
      rw [hd] at h1
      obtain ⟨m', e5, hc, hR'⟩ := h1
      simp only [LifeVals.step, LifeStore.step, e1, e2, hd, e5, ok_bind]
      refine ⟨_, rfl, by simp [hlen], own, ?_⟩
      show H R m' (fun k => w.objs[k]?.join) (fun k => (vs.set i (some y))[k]?.join) _
      rw [join_set _ _ (join_lt e4)]
      exact hH.change L e3 hc hR'

theorem run_W (L : Lawful K S R) : ∀ (ops : List (LifeStmt A U)) (w : LifeStore C O) (vs : List (Option V)), W R w vs → match S.run ops vs with
    | .ok vs' => ∃ w', LifeStore.run K ops w = .ok w' ∧ W R w' vs'
    | .error e => LifeStore.run K ops w = .error e := by
  intro ops
  induction ops with
  | nil => intro w vs h; exact ⟨w, rfl, h⟩
  | cons op ops ih =>
    intro w vs h
    have h1 := step_holds L h op
    simp only [LifeVals.run, LifeStore.run, List.foldlM_cons] at ih ⊢
    cases e : S.step vs op with
    | error e' =>
      rw [e] at h1
      simp only at h1
      rw [h1]
      rfl
    | ok vs' =>
      rw [e] at h1
      obtain ⟨w', e1, hw⟩ := h1
      rw [e1, ok_bind]
      exact ih w' vs' hw

/-- A program on objects does what it does on values, and leaves nothing behind. -/
theorem run_holds (L : Lawful K S R) (ops : List (LifeStmt A U)) : match S.run ops [] with
    | .ok vs => ∃ w, LifeStore.run K ops ⟨[], []⟩ = .ok w ∧ w.Holds R vs
    | .error e => LifeStore.run K ops ⟨[], []⟩ = .error e := by
  have h0 : W R (⟨[], []⟩ : LifeStore C O) ([] : List (Option V)) := by
    refine ⟨rfl, fun _ => [], ⟨?_, ?_, ?_, ?_⟩⟩
    · intro i o h; simp at h
    · intro i _; simp
    · intro i j k h; cases h
    · rintro k ⟨c, h⟩; simp at h
  have h1 := run_W L ops _ _ h0
  cases e : S.run ops [] with
  | error e' => rw [e] at h1; exact h1
  | ok vs =>
    rw [e] at h1
    obtain ⟨w, e1, hw⟩ := h1
    exact ⟨w, e1, (holds_iff L w vs).mpr hw⟩

end Lawful
end Linalg
