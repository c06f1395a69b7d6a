import Verif.Spec.View
import Verif.Proof.Vec
import Verif.Proof.Dense

/-!
# Loops over a view
-/

namespace Linalg
open Cpp

variable {α R : Type}

/-- A loop that writes element `off + i` in iteration `i`. -/
theorem mapLoop {N : Nat} (off : Int) {n : Int} (hn : 0 ≤ n) (f g : Int → α)
    (body : Int → List α → Res (List α))
    (hb : ∀ (i : Int) (h : Int → α), 0 ≤ i → i < n → (∀ p, ¬ (off ≤ p ∧ p < off + i) → h p = f p) →
      body i (vecFn N h) = .ok (vecFn N (fun p => if p = off + i then g i else h p))) :
    forUp 0 n (vecFn N f) body
      = .ok (vecFn N (fun p => if off ≤ p ∧ p < off + n then g (p - off) else f p)) := by
  have e0 : vecFn N f = vecFn N (fun p => if off ≤ p ∧ p < off + 0 then g (p - off) else f p) :=
    vecFn_congr (fun p _ _ => by rw [if_neg (by omega)])
  rw [e0]
  refine forUp_seq hn (fun k => vecFn N (fun p => if off ≤ p ∧ p < off + k then g (p - off) else f p)) ?_
  intro i h0 h1
  rw [hb i _ h0 h1 (fun p hp => by rw [if_neg hp])]
  congr 1
  apply vecFn_congr
  intro p _ _
  by_cases hp : p = off + i
  · subst hp
    rw [if_pos rfl, if_pos (by omega)]
    congr 1; omega
  · rw [if_neg hp]
    by_cases hq : off ≤ p ∧ p < off + i
    · rw [if_pos hq, if_pos (by omega)]
    · rw [if_neg hq, if_neg (by omega)]

theorem View.get_vecFn {N : Nat} {f : Int → α} {v : View} {i : Int} (h0 : 0 ≤ v.off) (h1 : v.off + v.size ≤ N)
    (hi : 0 ≤ i) (hi' : i < v.size) : v.get (vecFn N f) i = .ok (f (v.off + i)) := by
  unfold View.get
  rw [cassert_true hi', ok_bind, rd_vecFn (by omega) (by omega)]

theorem View.put_vecFn {N : Nat} {f : Int → α} {v : View} {i : Int} (x : α) (h0 : 0 ≤ v.off)
    (h1 : v.off + v.size ≤ N) (hi : 0 ≤ i) (hi' : i < v.size) :
    v.put (vecFn N f) i x = .ok (vecFn N (fun p => if p = v.off + i then x else f p)) := by
  unfold View.put
  rw [cassert_true hi', ok_bind, wr_vecFn x (by omega) (by omega)]

/-- Element `i` of `y` still has its original value when elements `0..i-1` of `x` have been changed. -/
theorem View.SameOrApart.orig {x y : View} (h : x.SameOrApart y) (hs : y.size = x.size) {f g : Int → α} {i : Int}
    (hi : 0 ≤ i) (hi' : i < x.size) (hh : ∀ p, ¬ (x.off ≤ p ∧ p < x.off + i) → g p = f p) :
    g (y.off + i) = f (y.off + i) := by
  apply hh
  rcases h with h | h
  · omega
  · intro hp
    exact h (y.off + i) ⟨⟨hp.1, by omega⟩, by unfold Has; omega⟩

end Linalg
