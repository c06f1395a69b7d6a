import Mathlib.Data.List.Forall2
import Verif.Cpp.Lemmas
import Verif.Model.Plain
import Verif.Spec.Plain

/-!
# Programs over plain classes follow the values
-/

namespace Linalg
open Cpp

namespace PlainCls
variable {O V A U : Type}

/-- What makes a class follow its values. -/
structure Follows (K : PlainCls O A U) (S : LifeVals V A U) (R : O → V → Prop) : Prop where
  make : ∀ a, Outcome R (K.make a) (S.make a)
  copy : ∀ o v, R o v → Outcome R (K.copy o) (S.copy v)
  blank : R K.blank S.blank
  swap : ∀ o v p u, R o v → R p u → R (K.swap o p).1 u ∧ R (K.swap o p).2 v
  destroy : ∀ v, S.destroy v = .ok ()

/-- The update `u` follows the values. -/
def Keeps (K : PlainCls O A U) (S : LifeVals V A U) (R : O → V → Prop) (u : U) : Prop :=
  ∀ o v, R o v → Outcome R (K.update o u) (S.update v u)

/-- Objects and values belong together. -/
def Rel (R : O → V → Prop) : Option O → Option V → Prop
  | some o, some v => R o v
  | none, none => True
  | _, _ => False

theorem obj_get {R : O → V → Prop} {w : List (Option O)} {vs : List (Option V)} (h : List.Forall₂ (Rel R) w vs) (i : Nat) :
    (∃ o v, obj w i = .ok o ∧ LifeVals.get vs i = .ok v ∧ R o v) ∨
    (obj w i = .error .undefinedBehaviour ∧ LifeVals.get vs i = .error .undefinedBehaviour) := by
  unfold obj LifeVals.get
  by_cases hi : i < w.length
  · have hi' : i < vs.length := by rw [← h.length_eq]; exact hi
    have hr := h.get hi hi'
    simp only [List.get_eq_getElem] at hr
    rw [List.getElem?_eq_getElem hi, List.getElem?_eq_getElem hi']
    revert hr
    cases w[i] <;> cases vs[i] <;> intro hr
    · exact .inr ⟨rfl, rfl⟩
    · exact hr.elim
    · exact hr.elim
    · exact .inl ⟨_, _, rfl, rfl, hr⟩
  · have hi' : ¬ i < vs.length := by rw [← h.length_eq]; exact hi
    rw [List.getElem?_eq_none (by omega), List.getElem?_eq_none (by omega)]
    exact .inr ⟨rfl, rfl⟩

theorem forall₂_set {β γ : Type} {T : β → γ → Prop} {l : List β} {m : List γ} (h : List.Forall₂ T l m) (i : Nat) {x : β} {y : γ} (hx : T x y) :
    List.Forall₂ T (l.set i x) (m.set i y) := by
  induction h generalizing i with
  | nil => simp
  | cons hd tl ih => cases i with
    | zero => exact .cons hx tl
    | succ i => exact .cons hd (ih i)

theorem forall₂_snoc {β γ : Type} {T : β → γ → Prop} {l : List β} {m : List γ} (h : List.Forall₂ T l m) {x : β} {y : γ} (hx : T x y) :
    List.Forall₂ T (l ++ [x]) (m ++ [y]) := by
  induction h with
  | nil => exact .cons hx .nil
  | cons hd _ ih => exact .cons hd ih

/-- Two results belong together. -/
def Both (R : O → V → Prop) (r : Res (List (Option O))) (s : Res (List (Option V))) : Prop :=
  match r, s with
  | .ok w, .ok vs => List.Forall₂ (Rel R) w vs
  | .error e, .error f => e = f
  | _, _ => False

theorem step_both {K : PlainCls O A U} {S : LifeVals V A U} {R : O → V → Prop} (L : Follows K S R) {w : List (Option O)}
    {vs : List (Option V)} (h : List.Forall₂ (Rel R) w vs) (op : LifeStmt A U) (hu : ∀ i u, op = .update i u → Keeps K S R u) :
    Both R (K.step w op) (S.step vs op) := by
  cases op with
  | make a =>
    have := L.make a
    simp only [step, LifeVals.step]
    revert this
    cases K.make a <;> cases S.make a <;> intro this
    · exact this
    · exact this.elim
    · exact this.elim
    · exact forall₂_snoc h this
  | copy i =>
    simp only [step, LifeVals.step]
    rcases obj_get h i with ⟨o, v, e1, e2, hr⟩ | ⟨e1, e2⟩ <;> rw [e1, e2]
    · rw [ok_bind, ok_bind]
      have := L.copy o v hr
      revert this
      cases K.copy o <;> cases S.copy v <;> intro this
      · exact this
      · exact this.elim
      · exact this.elim
      · exact forall₂_snoc h this
    · rfl
  | move i =>
    simp only [step, LifeVals.step]
    rcases obj_get h i with ⟨o, v, e1, e2, hr⟩ | ⟨e1, e2⟩ <;> rw [e1, e2]
    · have := L.swap _ _ _ _ L.blank hr
      exact forall₂_snoc (forall₂_set h i (x := some (K.swap K.blank o).2) (y := some S.blank) this.2) (x := some (K.swap K.blank o).1) (y := some v) this.1
    · rfl
  | assign i j =>
    simp only [step, LifeVals.step]
    rcases obj_get h i with ⟨o, v, e1, e2, hr⟩ | ⟨e1, e2⟩ <;> rw [e1, e2]
    · rw [ok_bind, ok_bind]
      rcases obj_get h j with ⟨p, u, f1, f2, hs⟩ | ⟨f1, f2⟩ <;> rw [f1, f2]
      · rw [ok_bind, ok_bind]
        have hc := L.copy p u hs
        revert hc
        cases K.copy p <;> cases S.copy u <;> intro hc
        · exact hc
        · exact hc.elim
        · exact hc.elim
        · simp only [ok_bind, L.destroy]
          exact forall₂_set h i (L.swap _ _ _ _ hr hc).1
      · rfl
    · rfl
  | assignMove i j =>
    simp only [step, LifeVals.step]
    rcases obj_get h i with ⟨o, v, e1, e2, hr⟩ | ⟨e1, e2⟩ <;> rw [e1, e2]
    · rw [ok_bind, ok_bind]
      rcases obj_get h j with ⟨p, u, f1, f2, hs⟩ | ⟨f1, f2⟩ <;> rw [f1, f2]
      · simp only [ok_bind]
        have hb := L.swap _ _ _ _ L.blank hs
        have h' := forall₂_set h j (x := some (K.swap K.blank p).2) (y := some S.blank) hb.2
        rcases obj_get h' i with ⟨q, t, g1, g2, ht⟩ | ⟨g1, g2⟩ <;> rw [g1, g2]
        · simp only [ok_bind, L.destroy]
          exact forall₂_set h' i (L.swap _ _ _ _ ht hb.1).1
        · rfl
      · rfl
    · rfl
  | swap i j =>
    simp only [step, LifeVals.step]
    rcases obj_get h i with ⟨o, v, e1, e2, hr⟩ | ⟨e1, e2⟩ <;> rw [e1, e2]
    · rw [ok_bind, ok_bind]
      rcases obj_get h j with ⟨p, u, f1, f2, hs⟩ | ⟨f1, f2⟩ <;> rw [f1, f2]
      · have := L.swap _ _ _ _ hr hs
        exact forall₂_set (forall₂_set h j (x := some (K.swap o p).2) (y := some v) this.2) i (x := some (K.swap o p).1) (y := some u) this.1
      · rfl
    · rfl
  | destroy i =>
    simp only [step, LifeVals.step]
    rcases obj_get h i with ⟨o, v, e1, e2, hr⟩ | ⟨e1, e2⟩ <;> rw [e1, e2]
    · simp only [ok_bind, L.destroy]
      exact forall₂_set h i (x := none) (y := none) trivial
    · rfl
  | update i u =>
    simp only [step, LifeVals.step]
    rcases obj_get h i with ⟨o, v, e1, e2, hr⟩ | ⟨e1, e2⟩ <;> rw [e1, e2]
    · rw [ok_bind, ok_bind]
      have := hu i u rfl o v hr
      revert this
      cases K.update o u <;> cases S.update v u <;> intro this
      · exact this
      · exact this.elim
      · exact this.elim
      · exact forall₂_set h i this
    · rfl

theorem run_both {K : PlainCls O A U} {S : LifeVals V A U} {R : O → V → Prop} (L : Follows K S R) :
    ∀ (ops : List (LifeStmt A U)) {w : List (Option O)} {vs : List (Option V)}, (∀ i u, LifeStmt.update i u ∈ ops → Keeps K S R u) →
      List.Forall₂ (Rel R) w vs → Both R (K.run ops w) (S.run ops vs) := by
  intro ops
  induction ops with
  | nil => intro w vs _ h; exact h
  | cons op ops ih =>
    intro w vs hu h
    have hs := step_both L h op (fun i u e => hu i u (by rw [e]; exact List.mem_cons_self))
    unfold run LifeVals.run
    rw [List.foldlM_cons, List.foldlM_cons]
    revert hs
    cases K.step w op <;> cases S.step vs op <;> intro hs
    · exact hs
    · exact hs.elim
    · exact hs.elim
    · exact ih (fun i u e => hu i u (List.mem_cons_of_mem _ e)) hs

theorem Both.agree {R : O → V → Prop} {r : Res (List (Option O))} {s : Res (List (Option V))} (h : Both R r s) : Agree R r s := by
  unfold Both at h
  unfold Agree
  cases r <;> cases s
  · exact h
  · exact h.elim
  · exact h.elim
  · rename_i w vs
    refine ⟨h.length_eq, fun i => ?_⟩
    by_cases hi : i < w.length
    · have hi' : i < vs.length := by rw [← h.length_eq]; exact hi
      have hr := h.get hi hi'
      simp only [List.get_eq_getElem] at hr
      rw [List.getElem?_eq_getElem hi, List.getElem?_eq_getElem hi']
      revert hr
      cases w[i] <;> cases vs[i] <;> intro hr <;> exact hr
    · have hi' : ¬ i < vs.length := by rw [← h.length_eq]; exact hi
      rw [List.getElem?_eq_none (by omega), List.getElem?_eq_none (by omega)]
      trivial

theorem Both.eq {r s : Res (List (Option O))} (h : Both (fun o v => o = v) r s) : r = s := by
  unfold Both at h
  cases r <;> cases s
  · rw [h]
  · exact h.elim
  · exact h.elim
  · rename_i w vs
    congr 1
    have : ∀ {w vs : List (Option O)}, List.Forall₂ (Rel fun o v => o = v) w vs → w = vs := by
      intro w vs h
      induction h with
      | nil => rfl
      | @cons a b _ _ hd _ ih =>
        rw [ih]
        cases a <;> cases b
        · rfl
        · exact hd.elim
        · exact hd.elim
        · exact congrArg (some · :: _) hd
    exact this h

/-- A class that copies and swaps whole objects runs every program as the values do. -/
theorem run_eq (K : PlainCls O A U) (copies : O → Bool) (hc : ∀ o, K.copy o = if copies o then .ok o else .error .assertFail)
    (hs : ∀ o p, K.swap o p = (p, o)) (ops : List (LifeStmt A U)) :
    K.run ops [] = (plainVals K.make copies K.blank K.update).run ops [] := by
  apply Both.eq
  apply run_both (R := fun o v => o = v)
  · constructor
    · intro a
      simp only [plainVals, Outcome]
      cases K.make a <;> rfl
    · rintro o _ rfl
      simp only [plainVals, hc o, Outcome]
      cases copies o <;> rfl
    · rfl
    · rintro o _ p _ rfl rfl
      rw [hs]
      exact ⟨rfl, rfl⟩
    · intro v; rfl
  · rintro i u - o _ rfl
    simp only [plainVals, Outcome]
    cases K.update o u <;> rfl
  · exact .nil

end PlainCls

theorem copySizes_eq (rows cols : Int) : copySizes rows cols = if sized rows cols then .ok (rows, cols) else .error .assertFail := by
  unfold copySizes sized
  by_cases h1 : 0 ≤ rows
  · by_cases h2 : 0 ≤ cols
    · rw [cassert_true h1, ok_bind, cassert_true h2, ok_bind]; simp [h1, h2]
    · rw [cassert_true h1, ok_bind, cassert_false h2]; simp [h2]
  · rw [cassert_false h1]; simp [h1]

end Linalg
