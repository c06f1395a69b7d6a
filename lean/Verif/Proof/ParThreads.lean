import Verif.Model.ParThreads
import Verif.Proof.ParSplitExt
import Verif.Proof.Vec

/-! # Products of distributed matrices with threads: helper lemmas -/

namespace Linalg
open Cpp

variable {α β γ σ π : Type}

namespace Par

/-! ## The ranges of the threads -/

/-- The first row of thread `t`. -/
def rowOf (n T t : Nat) : Nat := t * (n / T) + min t (n % T)

theorem threadBegin_eq (n T t : Nat) : threadBegin n T t = (rowOf n T t : Int) := by
  unfold threadBegin rowOf
  have h : (n : Int) - ((n / T : Nat) : Int) * T = ((n % T : Nat) : Int) := by
    have h1 : ((T * (n / T) + n % T : Nat) : Int) = (n : Int) := by rw [Nat.div_add_mod]
    rw [Nat.cast_add, Nat.cast_mul] at h1
    rw [mul_comm]
    omega
  have h2 : ((n : Int).tdiv (T : Int)) = ((n / T : Nat) : Int) := by simp
  simp only [h2]
  rw [h]
  split
  · rename_i hlt
    rw [min_eq_left (by omega)]
    push_cast
    rfl
  · rename_i hlt
    rw [min_eq_right (by omega)]
    push_cast
    rfl

theorem threadEnd_eq (n T t : Nat) : threadEnd n T t = (rowOf n T (t + 1) : Int) := by
  rw [← threadBegin_eq n T (t + 1)]
  unfold threadEnd threadBegin
  rw [Nat.cast_add, Nat.cast_one]
  generalize (n : Int).tdiv T = q
  by_cases h1 : (t : Int) < n - q * T
  · rw [if_pos h1]
    by_cases h2 : (t : Int) + 1 < n - q * T
    · rw [if_pos h2, add_assoc]
    · rw [if_neg h2]
      have : (t : Int) + 1 = n - q * T := by omega
      rw [add_assoc, this]
  · rw [if_neg h1, if_neg (by omega)]

theorem rowOf_zero (n T : Nat) : rowOf n T 0 = 0 := by simp [rowOf]

theorem rowOf_last {n T : Nat} (hT : 0 < T) : rowOf n T T = n := by
  unfold rowOf
  rw [min_eq_right (Nat.mod_lt _ hT).le]
  exact Nat.div_add_mod n T

theorem rowOf_le_succ (n T t : Nat) : rowOf n T t ≤ rowOf n T (t + 1) := by
  unfold rowOf
  have h1 : t * (n / T) ≤ (t + 1) * (n / T) := Nat.mul_le_mul_right _ (by omega)
  have h2 : min t (n % T) ≤ min (t + 1) (n % T) := by omega
  omega

theorem rowOf_mono (n T : Nat) {s t : Nat} (h : s ≤ t) : rowOf n T s ≤ rowOf n T t :=
  monotone_nat_of_le_succ (rowOf_le_succ n T) h

theorem rowOf_cover {n T : Nat} (hT : 0 < T) {i : Nat} (hi : i < n) : ∃ t < T, rowOf n T t ≤ i ∧ i < rowOf n T (t + 1) := by
  have key : ∀ k, i < rowOf n T k → ∃ t < k, rowOf n T t ≤ i ∧ i < rowOf n T (t + 1) := by
    intro k
    induction k with
    | zero => intro h; rw [rowOf_zero] at h; omega
    | succ k ih =>
      intro h
      by_cases hk : i < rowOf n T k
      · obtain ⟨t, h1, h2⟩ := ih hk
        exact ⟨t, by omega, h2⟩
      · exact ⟨k, by omega, by omega, h⟩
  exact key T (by rw [rowOf_last hT]; exact hi)

theorem rowOf_unique {n T i s t : Nat} (h1 : rowOf n T s ≤ i) (h2 : i < rowOf n T (s + 1)) (h3 : rowOf n T t ≤ i) (h4 : i < rowOf n T (t + 1)) : s = t := by
  by_contra hne
  rcases Nat.lt_or_gt_of_ne hne with h | h
  · have := rowOf_mono n T (show s + 1 ≤ t from h); omega
  · have := rowOf_mono n T (show t + 1 ≤ s from h); omega

/-! ## Any schedule -/

/-- The rows that are done when the next row of thread `t` is `nx t`. -/
def doneOf (n T : Nat) (nx : Nat → Nat) (i : Nat) : Bool := decide (∃ t < T, rowOf n T t ≤ i ∧ i < nx t)

theorem doneOf_update {n T : Nat} {nx : Nat → Nat} (hnx : ∀ t < T, rowOf n T t ≤ nx t ∧ nx t ≤ rowOf n T (t + 1)) {t : Nat} (ht : t < T) :
    doneOf n T (Function.update nx t (nx t + 1)) = Function.update (doneOf n T nx) (nx t) true := by
  funext i
  unfold doneOf
  by_cases hi : i = nx t
  · subst hi
    rw [Function.update_self]
    simp only [decide_eq_true_eq]
    exact ⟨t, ht, (hnx t ht).1, by rw [Function.update_self]; omega⟩
  · rw [Function.update_of_ne hi]
    congr 1
    apply propext
    constructor
    · rintro ⟨s, hs, h1, h2⟩
      by_cases hst : s = t
      · subst hst
        rw [Function.update_self] at h2
        exact ⟨s, hs, h1, by omega⟩
      · rw [Function.update_of_ne hst] at h2
        exact ⟨s, hs, h1, h2⟩
    · rintro ⟨s, hs, h1, h2⟩
      by_cases hst : s = t
      · subst hst
        exact ⟨s, hs, h1, by rw [Function.update_self]; omega⟩
      · exact ⟨s, hs, h1, by rw [Function.update_of_ne hst]; exact h2⟩

theorem doneOf_next {n T : Nat} {nx : Nat → Nat} (hnx : ∀ t < T, rowOf n T t ≤ nx t ∧ nx t ≤ rowOf n T (t + 1)) {t : Nat} (ht : t < T)
    (hlt : nx t < rowOf n T (t + 1)) : doneOf n T nx (nx t) = false := by
  unfold doneOf
  simp only [decide_eq_false_iff_not]
  rintro ⟨s, hs, h1, h2⟩
  have h3 := hnx s hs
  have := rowOf_unique h1 (by omega) (hnx t ht).1 hlt
  subst this
  omega

theorem threadFor_ok {n T : Nat} (hT : 0 < T) {sched : List Nat} (hc : Complete n T sched) {s : σ} {privs : List π} (hl : privs.length = T)
    {body : Int → σ × π → Res (σ × π)} (I : (Nat → Bool) → σ → Prop) (J : Nat → Nat → π → Prop) (h0 : I (fun _ => false) s)
    (hp : ∀ t (h : t < privs.length), J t (rowOf n T t) privs[t])
    (hstep : ∀ t < T, ∀ (i : Nat) (d : Nat → Bool) (s : σ) (p : π), rowOf n T t ≤ i → i < rowOf n T (t + 1) → i < n → d i = false → I d s → J t i p →
      ∃ s' p', body (i : Int) (s, p) = .ok (s', p') ∧ I (Function.update d i true) s' ∧ J t (i + 1) p') :
    ∃ s' ps, threadFor n T sched s privs body = .ok (s', ps) ∧ ps.length = T ∧ I (fun i => decide (i < n)) s' ∧
      ∀ t (h : t < ps.length), J t (rowOf n T (t + 1)) ps[t] := by
  have key : ∀ (sched : List Nat) (st : σ × List (Int × π)) (nx : Nat → Nat), st.2.length = T →
      (∀ t < T, rowOf n T t ≤ nx t ∧ nx t ≤ rowOf n T (t + 1)) →
      I (doneOf n T nx) st.1 → (∀ t (h : t < st.2.length), st.2[t].1 = (nx t : Int) ∧ J t (nx t) st.2[t].2) →
      ∃ (st' : σ × List (Int × π)) (nx' : Nat → Nat), sched.foldlM (threadStep n T body) st = .ok st' ∧ st'.2.length = T ∧
        (∀ t < T, rowOf n T t ≤ nx' t ∧ nx' t ≤ rowOf n T (t + 1)) ∧ (∀ t < T, min (rowOf n T (t + 1)) (nx t + sched.count t) ≤ nx' t) ∧
        I (doneOf n T nx') st'.1 ∧ (∀ t (h : t < st'.2.length), st'.2[t].1 = (nx' t : Int) ∧ J t (nx' t) st'.2[t].2) := by
    intro sched
    induction sched with
    | nil =>
      intro st nx h1 h2 h3 h4
      exact ⟨st, nx, rfl, h1, h2, fun t _ => by simp, h3, h4⟩
    | cons a l ih =>
      intro st nx h1 h2 h3 h4
      rw [List.foldlM_cons]
      unfold threadStep
      by_cases ha : a < T
      · have ha' : a < st.2.length := by omega
        obtain ⟨e1, e2⟩ := h4 a ha'
        rw [List.getElem?_eq_getElem ha']
        generalize hq : st.2[a] = q at *
        obtain ⟨i, p⟩ := q
        simp only at e1 e2 ⊢
        subst e1
        rw [threadEnd_eq]
        by_cases hlt : nx a < rowOf n T (a + 1)
        · rw [if_pos (by omega)]
          have hn : nx a < n := by
            have := rowOf_mono n T (show a + 1 ≤ T from ha)
            rw [rowOf_last hT] at this
            omega
          obtain ⟨s', p', b1, b2, b3⟩ := hstep a ha (nx a) _ st.1 p (h2 a ha).1 hlt hn (doneOf_next h2 ha hlt) h3 e2
          rw [b1, ok_bind, ok_bind]
          rw [← doneOf_update h2 ha] at b2
          obtain ⟨st', nx', c1, c2, c3, c4, c5, c6⟩ := ih (s', st.2.set a ((nx a : Int) + 1, p')) (Function.update nx a (nx a + 1)) (by simpa using h1)
            (by
              intro t ht
              by_cases hta : t = a
              · subst hta
                rw [Function.update_self]
                have := h2 t ht
                omega
              · rw [Function.update_of_ne hta]
                exact h2 t ht) b2 (by
              intro t ht
              simp only [List.length_set] at ht
              by_cases hta : t = a
              · subst hta
                simp only [List.getElem_set_self, Function.update_self]
                exact ⟨by push_cast; rfl, b3⟩
              · simp only [Function.update_of_ne hta]
                rw [List.getElem_set_ne (Ne.symm hta)]
                exact h4 t ht)
          refine ⟨st', nx', c1, c2, c3, ?_, c5, c6⟩
          intro t ht
          have := c4 t ht
          by_cases hta : t = a
          · subst hta
            rw [Function.update_self] at this
            rw [List.count_cons_self]
            omega
          · rw [Function.update_of_ne hta] at this
            rw [List.count_cons_of_ne (Ne.symm hta)]
            exact this
        · rw [if_neg (by omega), ok_bind]
          obtain ⟨st', nx', c1, c2, c3, c4, c5, c6⟩ := ih st nx h1 h2 h3 h4
          refine ⟨st', nx', c1, c2, c3, ?_, c5, c6⟩
          intro t ht
          have := c4 t ht
          by_cases hta : t = a
          · subst hta
            have := h2 t ht
            omega
          · rw [List.count_cons_of_ne (Ne.symm hta)]
            exact this
      · rw [List.getElem?_eq_none (by omega)]
        simp only
        rw [ok_bind]
        obtain ⟨st', nx', c1, c2, c3, c4, c5, c6⟩ := ih st nx h1 h2 h3 h4
        refine ⟨st', nx', c1, c2, c3, ?_, c5, c6⟩
        intro t ht
        rw [List.count_cons_of_ne (by omega)]
        exact c4 t ht
  obtain ⟨st', nx', c1, c2, c3, c4, c5, c6⟩ := key sched (s, privs.mapIdx (fun t p => (threadBegin n T t, p))) (rowOf n T) (by simpa using hl)
    (fun t _ => ⟨le_rfl, rowOf_le_succ n T t⟩) (by
      have : doneOf n T (rowOf n T) = fun _ => false := by
        funext i
        unfold doneOf
        simp only [decide_eq_false_iff_not]
        rintro ⟨t, -, h1, h2⟩
        omega
      rw [this]
      exact h0) (by
      intro t ht
      simp only [List.length_mapIdx] at ht
      simp only [List.getElem_mapIdx]
      exact ⟨threadBegin_eq n T t, hp t ht⟩)
  have hfin : ∀ t < T, nx' t = rowOf n T (t + 1) := by
    intro t ht
    have h1 := hc t ht
    rw [threadBegin_eq, threadEnd_eq] at h1
    have h2 := c4 t ht
    have h3 := (c3 t ht).2
    omega
  refine ⟨st'.1, st'.2.map Prod.snd, ?_, by simpa using c2, ?_, ?_⟩
  · unfold threadFor
    rw [c1, ok_bind]
  · have : doneOf n T nx' = fun i => decide (i < n) := by
      funext i
      unfold doneOf
      congr 1
      apply propext
      constructor
      · rintro ⟨t, ht, h1, h2⟩
        rw [hfin t ht] at h2
        have := rowOf_mono n T (show t + 1 ≤ T from ht)
        rw [rowOf_last hT] at this
        omega
      · intro hi
        obtain ⟨t, ht, h1, h2⟩ := rowOf_cover hT hi
        exact ⟨t, ht, h1, by rw [hfin t ht]; exact h2⟩
    rw [this] at c5
    exact c5
  · intro t ht
    simp only [List.length_map] at ht
    rw [List.getElem_map]
    have := (c6 t ht).2
    rw [hfin t (by omega)] at this
    exact this

/-! ## Row pointers -/

/-- The number of entries before row `k`. -/
def pre (rs : List (List β)) (k : Nat) : Int := (((rs.take k).flatten.length : Nat) : Int)

theorem pre_succ (rs : List (List β)) {k : Nat} (h : k < rs.length) : pre rs (k + 1) = pre rs k + (rs[k].length : Int) := by
  unfold pre
  rw [take_succ_flatten_length rs k h]
  push_cast
  rfl

theorem pre_zero (rs : List (List β)) : pre rs 0 = 0 := by simp [pre]

theorem eq_ptrs {rs : List (List β)} {l : List Int} (hl : l.length = rs.length + 1) (h : ∀ k ≤ rs.length, l[k]? = some (pre rs k)) : l = ptrs rs := by
  apply List.ext_getElem
  · rw [hl, length_ptrs]
  · intro k h1 h2
    have := h k (by omega)
    rw [List.getElem?_eq_getElem h1] at this
    rw [Option.some.inj this, getElem_ptrs]
    rfl

theorem countsBefore_ok {T : Nat} {counts : List Int} (f : Nat → Int) (hl : counts.length = T) (h : ∀ t (ht : t < counts.length), counts[t] = f (t + 1) - f t)
    {t : Nat} (h0 : 0 < t) (ht : t < T) : countsBefore counts t = .ok (f t - f 0) := by
  have key : ∀ k : Nat, 0 < k → k ≤ T → ∃ s, forUp 1 (k : Int) (f 1 - f 0) (fun i s => do
      let c ← rd counts i
      .ok (s + c)) = .ok s ∧ s = f k - f 0 := by
    intro k hk hkT
    obtain ⟨s, h1, h2⟩ := forUp_inv (a := 1) (b := k) (by omega) (f := fun i s => do
      let c ← rd counts i
      .ok (s + c)) (fun i s => s = f i.toNat - f 0) (s := f 1 - f 0) (by simp) (by
        rintro i s h1 h2 rfl
        obtain ⟨j, rfl⟩ : ∃ j : Nat, i = j := ⟨i.toNat, by omega⟩
        refine ⟨_, by rw [rd_nat (by omega), ok_bind], ?_⟩
        rw [h j (by omega)]
        have : ((j : Int) + 1).toNat = j + 1 := by omega
        rw [this]
        simp only [Int.toNat_natCast]
        ring)
    exact ⟨s, h1, by simpa using h2⟩
  unfold countsBefore
  have e : rd counts 0 = .ok (f 1 - f 0) := by
    have := rd_nat (v := counts) (n := 0) (by omega)
    rw [h 0 (by omega)] at this
    exact this
  rw [e, ok_bind]
  obtain ⟨s, h1, h2⟩ := key t h0 ht.le
  rw [h1, h2]

theorem countsAll_ok {T : Nat} {counts : List Int} (f : Nat → Int) (hl : counts.length = T) (h : ∀ t (ht : t < counts.length), counts[t] = f (t + 1) - f t) :
    countsAll counts = .ok (f T - f 0) := by
  unfold countsAll
  obtain ⟨s, h1, h2⟩ := forUp_inv_nat (n := counts.length) (f := fun i s => do
      let c ← rd counts i
      .ok (s + c)) (fun i s => s = f i - f 0) (s := 0) (by simp) (by
        rintro i s hi rfl
        refine ⟨_, by rw [rd_nat hi, ok_bind], ?_⟩
        rw [h i hi]
        ring)
  rw [h1, h2, hl]

theorem getElem?_set_of {l : List β} {i k : Nat} {v : β} (hi : i < l.length) : (l.set i v)[k]? = if i = k then some v else l[k]? := by
  rw [List.getElem?_set]
  by_cases h : i = k
  · subst h
    rw [if_pos rfl, if_pos hi, if_pos rfl]
  · rw [if_neg h, if_neg h]

theorem threadPtrs_ok {n T : Nat} (hT : 0 < T) {s1 s2 : List Nat} (hs1 : Complete n T s1) (hs2 : Complete n T s2) {row : Int → π → Res π} {cnt : π → Int × Int}
    {p0 : π} {rsd rso : List (List β)} (hd : rsd.length = n) (ho : rso.length = n) (F : π → Prop) (h0 : F p0) (hc0 : cnt p0 = (0, 0))
    (hrow : ∀ (i : Nat) (h1 : i < rsd.length) (h2 : i < rso.length) p, F p → ∃ p', row (i : Int) p = .ok p' ∧ F p' ∧
      cnt p' = ((cnt p).1 + (rsd[i].length : Int), (cnt p).2 + (rso[i].length : Int))) :
    threadPtrs (n : Int) T s1 s2 row cnt p0 = .ok (ptrs rsd, ptrs rso) := by
  unfold threadPtrs
  have q1 : mkVec ((n : Int) + 1) (0 : Int) = .ok (List.replicate (n + 1) 0) := by
    have := mkVec_nat (n + 1) (0 : Int); push_cast at this; exact this
  rw [q1, ok_bind]
  obtain ⟨⟨di, oi⟩, ps, e1, e2, ⟨e3, e4, e5⟩, e6⟩ := threadFor_ok hT hs1 (s := (List.replicate (n + 1) (0 : Int), List.replicate (n + 1) (0 : Int)))
    (privs := List.replicate T p0) (by simp) (body := fun i st => do
      let p ← row i st.2
      let di ← wr st.1.1 i (cnt st.2).1
      let oi ← wr st.1.2 i (cnt st.2).2
      .ok ((di, oi), p))
    (fun d s => s.1.length = n + 1 ∧ s.2.length = n + 1 ∧ ∀ t < T, ∀ i, rowOf n T t ≤ i → i < rowOf n T (t + 1) → d i = true →
      s.1[i]? = some (pre rsd i - pre rsd (rowOf n T t)) ∧ s.2[i]? = some (pre rso i - pre rso (rowOf n T t)))
    (fun t i p => F p ∧ cnt p = (pre rsd i - pre rsd (rowOf n T t), pre rso i - pre rso (rowOf n T t)))
    ⟨by simp, by simp, by simp⟩ (by
      intro t ht
      rw [List.getElem_replicate]
      exact ⟨h0, by rw [hc0]; simp⟩) (by
      rintro t ht i d ⟨di, oi⟩ p hi1 hi2 hin hdi ⟨a1, a2, a3⟩ ⟨b1, b2⟩
      obtain ⟨p', c1, c2, c3⟩ := hrow i (by omega) (by omega) p b1
      simp only at a1 a2 a3 ⊢
      rw [c1, ok_bind, wr_nat (by omega), ok_bind, wr_nat (by omega), ok_bind]
      refine ⟨_, _, rfl, ⟨by simpa using a1, by simpa using a2, ?_⟩, c2, ?_⟩
      · intro t' ht' k hk1 hk2 hk
        rw [getElem?_set_of (by omega), getElem?_set_of (by omega)]
        by_cases hik : i = k
        · subst hik
          rw [if_pos rfl, if_pos rfl, b2, rowOf_unique hi1 hi2 hk1 hk2]
          exact ⟨rfl, rfl⟩
        · rw [if_neg hik, if_neg hik]
          rw [Function.update_of_ne (Ne.symm hik)] at hk
          exact a3 t' ht' k hk1 hk2 hk
      · rw [c3, b2, pre_succ rsd (by omega), pre_succ rso (by omega)]
        simp only
        congr 1 <;> ring)
  rw [e1, ok_bind]
  simp only at e3 e4 e5 ⊢
  have t1 := countsAll_ok (T := T) (counts := ps.map (fun p => (cnt p).1)) (fun t => pre rsd (rowOf n T t)) (by simpa using e2) (by
    intro t ht
    simp only [List.length_map] at ht
    rw [List.getElem_map, (e6 t ht).2])
  have t2 := countsAll_ok (T := T) (counts := ps.map (fun p => (cnt p).2)) (fun t => pre rso (rowOf n T t)) (by simpa using e2) (by
    intro t ht
    simp only [List.length_map] at ht
    rw [List.getElem_map, (e6 t ht).2])
  have u1 : ∀ t : Nat, 0 < t → t < T → countsBefore (ps.map (fun p => (cnt p).1)) t = .ok (pre rsd (rowOf n T t)) := by
    intro t h1 h2
    have := countsBefore_ok (T := T) (counts := ps.map (fun p => (cnt p).1)) (fun t => pre rsd (rowOf n T t)) (by simpa using e2) (by
      intro t ht
      simp only [List.length_map] at ht
      rw [List.getElem_map, (e6 t ht).2]) h1 h2
    rw [this]
    simp [rowOf_zero, pre_zero]
  have u2 : ∀ t : Nat, 0 < t → t < T → countsBefore (ps.map (fun p => (cnt p).2)) t = .ok (pre rso (rowOf n T t)) := by
    intro t h1 h2
    have := countsBefore_ok (T := T) (counts := ps.map (fun p => (cnt p).2)) (fun t => pre rso (rowOf n T t)) (by simpa using e2) (by
      intro t ht
      simp only [List.length_map] at ht
      rw [List.getElem_map, (e6 t ht).2]) h1 h2
    rw [this]
    simp [rowOf_zero, pre_zero]
  simp only [rowOf_zero, pre_zero, rowOf_last hT, sub_zero] at t1 t2
  rw [t1, ok_bind, t2, ok_bind, wr_nat (by omega), ok_bind, wr_nat (by omega), ok_bind]
  have m : (List.range T).mapM (fun (t : Nat) =>
      if t = 0 then (.ok none : Res (Option (Int × Int)))
      else do
        let a ← countsBefore (ps.map (fun p => (cnt p).1)) t
        let b ← countsBefore (ps.map (fun p => (cnt p).2)) t
        .ok (some (a, b)))
      = .ok ((List.range T).map (fun t => if t = 0 then none else some (pre rsd (rowOf n T t), pre rso (rowOf n T t)))) := by
    apply mapM_ok
    intro t ht
    rw [List.mem_range] at ht
    by_cases h : t = 0
    · rw [if_pos h, if_pos h]
    · rw [if_neg h, if_neg h, u1 t (by omega) ht, ok_bind, u2 t (by omega) ht, ok_bind]
  rw [m, ok_bind]
  obtain ⟨⟨di', oi'⟩, ps', f1, -, ⟨f3, f4, f5, f6, f7⟩, -⟩ := threadFor_ok hT hs2 (s := (di.set n (pre rsd n), oi.set n (pre rso n)))
    (privs := (List.range T).map (fun t => if t = 0 then none else some (pre rsd (rowOf n T t), pre rso (rowOf n T t)))) (by simp) (body := addOffsets)
    (fun d s => s.1.length = n + 1 ∧ s.2.length = n + 1 ∧ s.1[n]? = some (pre rsd n) ∧ s.2[n]? = some (pre rso n) ∧
      ∀ t < T, ∀ i, rowOf n T t ≤ i → i < rowOf n T (t + 1) →
        s.1[i]? = some (if d i then pre rsd i else pre rsd i - pre rsd (rowOf n T t)) ∧
        s.2[i]? = some (if d i then pre rso i else pre rso i - pre rso (rowOf n T t)))
    (fun t _ p => p = if t = 0 then none else some (pre rsd (rowOf n T t), pre rso (rowOf n T t)))
    (by
      refine ⟨by simpa using e3, by simpa using e4, ?_, ?_, ?_⟩
      · simp only
        rw [getElem?_set_of (by omega), if_pos rfl]
      · simp only
        rw [getElem?_set_of (by omega), if_pos rfl]
      · intro t ht i h1 h2
        have hin : i < n := by
          have := rowOf_mono n T (show t + 1 ≤ T from ht)
          rw [rowOf_last hT] at this
          omega
        simp only
        rw [getElem?_set_of (by omega), getElem?_set_of (by omega), if_neg (show ¬ n = i by omega), if_neg (show ¬ n = i by omega)]
        simp only [Bool.false_eq_true, if_false]
        exact e5 t ht i h1 h2 (by simpa using hin)) (by
      intro t ht
      simp) (by
      rintro t ht i d ⟨di, oi⟩ p hi1 hi2 hin hdi ⟨a1, a2, a3, a4, a5⟩ rfl
      simp only at a1 a2 a3 a4 a5 ⊢
      have g := a5 t ht i hi1 hi2
      rw [hdi] at g
      simp only [Bool.false_eq_true, if_false] at g
      by_cases h : t = 0
      · subst h
        rw [if_pos rfl]
        refine ⟨_, _, show addOffsets _ ((di, oi), none) = _ from rfl, ⟨a1, a2, a3, a4, ?_⟩, by simp⟩
        intro t' ht' k hk1 hk2
        by_cases hik : i = k
        · subst hik
          rw [Function.update_self, if_pos rfl, if_pos rfl]
          simpa [rowOf_zero, pre_zero] using g
        · rw [Function.update_of_ne (Ne.symm hik)]
          exact a5 t' ht' k hk1 hk2
      · rw [if_neg h]
        unfold addOffsets
        simp only
        have r1 : rd di (i : Int) = .ok (pre rsd i - pre rsd (rowOf n T t)) := by
          rw [rd_nat (by omega)]
          rw [List.getElem?_eq_getElem (by omega)] at g
          rw [Option.some.inj g.1]
        have r2 : rd oi (i : Int) = .ok (pre rso i - pre rso (rowOf n T t)) := by
          rw [rd_nat (by omega)]
          have g2 := g.2
          rw [List.getElem?_eq_getElem (by omega)] at g2
          rw [Option.some.inj g2]
        rw [r1, ok_bind, wr_nat (by omega), ok_bind, r2, ok_bind, wr_nat (by omega), ok_bind, sub_add_cancel, sub_add_cancel]
        refine ⟨_, _, rfl, ⟨by simpa using a1, by simpa using a2, ?_, ?_, ?_⟩, by simp [h]⟩
        · simp only
          rw [getElem?_set_of (by omega), if_neg (by omega)]
          exact a3
        · simp only
          rw [getElem?_set_of (by omega), if_neg (by omega)]
          exact a4
        · intro t' ht' k hk1 hk2
          simp only
          rw [getElem?_set_of (by omega), getElem?_set_of (by omega)]
          by_cases hik : i = k
          · subst hik
            rw [Function.update_self, if_pos rfl, if_pos rfl, if_pos rfl, if_pos rfl]
            exact ⟨rfl, rfl⟩
          · rw [Function.update_of_ne (Ne.symm hik), if_neg hik, if_neg hik]
            exact a5 t' ht' k hk1 hk2)
  rw [f1, ok_bind]
  simp only at f3 f4 f5 f6 f7
  congr 1
  have hcov : ∀ k ≤ n, di'[k]? = some (pre rsd k) ∧ oi'[k]? = some (pre rso k) := by
    intro k hk
    rcases Nat.lt_or_ge k n with h | h
    · obtain ⟨t, ht, h1, h2⟩ := rowOf_cover hT h
      have := f7 t ht k h1 h2
      simpa [h] using this
    · have : k = n := by omega
      subst this
      exact ⟨f5, f6⟩
  rw [eq_ptrs (rs := rsd) (by omega) (fun k hk => (hcov k (by omega)).1), eq_ptrs (rs := rso) (by omega) (fun k hk => (hcov k (by omega)).2)]

/-! ## Arrays of which some rows are done -/

/-- The rows that are done, and what stands in the place of the others. -/
def mix (n : Nat) (F G : Nat → List β) (d : Nat → Bool) : List β := (List.range n).flatMap (fun i => if d i then F i else G i)

theorem mix_all (n : Nat) (F G : Nat → List β) : mix n F G (fun i => decide (i < n)) = (List.range n).flatMap F := by
  unfold mix
  apply List.flatMap_congr
  intro i hi
  rw [List.mem_range] at hi
  simp [hi]

theorem mix_none (n : Nat) (F G : Nat → List β) : mix n F G (fun _ => false) = (List.range n).flatMap G := by
  simp [mix]

theorem range_split {n i : Nat} (hi : i < n) : List.range n = List.range i ++ i :: (List.range (n - (i + 1))).map (fun k => i + 1 + k) := by
  have h1 : n = (i + 1) + (n - (i + 1)) := by omega
  rw [h1, List.range_add, List.range_succ]
  simp

theorem range_flatMap_getD (rs : List (List β)) (i : Nat) (hi : i ≤ rs.length) :
    (List.range i).flatMap (fun k => rs.getD k []) = (rs.take i).flatten := by
  induction i with
  | zero => simp
  | succ i ih =>
    rw [List.range_succ, List.flatMap_append, ih (by omega), take_succ_eq (by omega), List.flatten_append]
    simp [List.getD_eq_getElem?_getD, List.getElem?_eq_getElem (show i < rs.length by omega)]

theorem mix_split {n : Nat} {F G : Nat → List β} (rs : List (List γ)) (hn : rs.length = n) (hF : ∀ i < n, (F i).length = (rs.getD i []).length)
    (hG : ∀ i < n, (G i).length = (rs.getD i []).length) {d : Nat → Bool} {i : Nat} (hi : i < n) (hd : d i = false) :
    ∃ X Z, X.length = (rs.take i).flatten.length ∧ mix n F G d = X ++ G i ++ Z ∧ mix n F G (Function.update d i true) = X ++ F i ++ Z := by
  refine ⟨mix i F G d, ((List.range (n - (i + 1))).map (fun k => i + 1 + k)).flatMap (fun k => if d k then F k else G k), ?_, ?_, ?_⟩
  · rw [← range_flatMap_getD rs i (by omega)]
    unfold mix
    have : ∀ k ≤ i, ((List.range k).flatMap (fun i => if d i then F i else G i)).length = ((List.range k).flatMap (fun k => rs.getD k [])).length := by
      intro k
      induction k with
      | zero => simp
      | succ k ih =>
        intro hk
        rw [List.range_succ, List.flatMap_append, List.flatMap_append, List.length_append, List.length_append, ih (by omega)]
        simp only [List.flatMap_cons, List.flatMap_nil, List.append_nil]
        split
        · rw [hF k (by omega)]
        · rw [hG k (by omega)]
    exact this i le_rfl
  · unfold mix
    rw [range_split hi, List.flatMap_append, List.flatMap_cons, hd]
    simp
  · unfold mix
    rw [range_split hi, List.flatMap_append, List.flatMap_cons, Function.update_self]
    simp only [if_true, List.append_assoc]
    congr 1
    · apply List.flatMap_congr
      intro k hk
      rw [List.mem_range] at hk
      rw [Function.update_of_ne (by omega)]
    · congr 1
      apply List.flatMap_congr
      intro k hk
      obtain ⟨j, -, rfl⟩ := List.mem_map.mp hk
      rw [Function.update_of_ne (by omega)]

theorem mix_map {γ : Type} (f : β → γ) (n : Nat) (F G : Nat → List β) (d : Nat → Bool) :
    (mix n F G d).map f = mix n (fun i => (F i).map f) (fun i => (G i).map f) d := by
  unfold mix
  rw [List.map_flatMap]
  apply List.flatMap_congr
  intro i _
  split <;> rfl

theorem range_flatMap_replicate (rs : List (List β)) (z : γ) :
    (List.range rs.length).flatMap (fun i => List.replicate (rs.getD i []).length z) = List.replicate rs.flatten.length z := by
  have := range_flatMap_getD (rs.map (fun r => List.replicate r.length z)) rs.length (by simp)
  rw [List.take_of_length_le (by simp)] at this
  have e : (rs.map (fun r => List.replicate r.length z)).flatten = List.replicate rs.flatten.length z := by
    rw [List.eq_replicate_iff]
    refine ⟨by simp [List.length_flatten, Function.comp_def], ?_⟩
    intro b hb
    obtain ⟨l, hl, hb⟩ := List.mem_flatten.mp hb
    obtain ⟨r, -, rfl⟩ := List.mem_map.mp hl
    exact List.eq_of_mem_replicate hb
  rw [← e, ← this]
  apply List.flatMap_congr
  intro i hi
  rw [List.mem_range] at hi
  simp [List.getD_eq_getElem?_getD, hi]

/-! ## Splitting the received rows -/

theorem extCountRow_ok (first last : Int) {K : Int} (re : List (List (Int × α))) (i : Nat) (hi : i < re.length) (s : Int × Int) :
    extCountRow first last (Csr.ofRows K re) (i : Int) s
      = .ok (s.1 + (((ownRow first last re[i]).length : Nat) : Int), s.2 + (((otherRow first last re[i]).length : Nat) : Int)) := by
  unfold extCountRow
  rw [Csr.forRow_ofRows K re i hi _ _ (fun e (s : Int × Int) =>
    if isOther first last e.1 then .ok (s.1, s.2 + 1) else .ok (s.1 + 1, s.2))]
  · have key : ∀ (r : List (Int × α)) (a b : Int), r.foldlM (fun (s : Int × Int) e =>
        if isOther first last e.1 then (.ok (s.1, s.2 + 1) : Res _) else .ok (s.1 + 1, s.2)) (a, b)
        = .ok (a + (((ownRow first last r).length : Nat) : Int), b + (((otherRow first last r).length : Nat) : Int)) := by
      intro r
      induction r with
      | nil => intro a b; simp [ownRow, otherRow]
      | cons e r ih =>
        intro a b
        rw [List.foldlM_cons]
        by_cases h : isOther first last e.1 = true
        · rw [if_pos h, ok_bind, ih]
          simp [ownRow, otherRow, h]; omega
        · rw [if_neg h, ok_bind, ih]
          have h' : isOther first last e.1 = false := by simpa using h
          simp [ownRow, otherRow, h']; omega
    exact key re[i] s.1 s.2
  · intro m hm s
    rw [rd_indices_ofRows K re i m hi hm, ok_bind]

/-- The arrays when the row at hand still needs `ko` and `kd` places. -/
def extMid [Zero α] (W : List Int) (Xo Zo Xd Zd : List (Int × α)) (ko kd : Nat) : ExtArrays α × (Int × Int) :=
  (⟨Xo.map Prod.fst ++ List.replicate ko 0 ++ W, Xo.map Prod.fst ++ List.replicate ko 0 ++ Zo.map Prod.fst,
    Xo.map Prod.snd ++ List.replicate ko 0 ++ Zo.map Prod.snd, Xd.map Prod.fst ++ List.replicate kd 0 ++ Zd.map Prod.fst,
    Xd.map Prod.snd ++ List.replicate kd 0 ++ Zd.map Prod.snd⟩, ((Xo.length : Int), (Xd.length : Int)))

theorem wr_hole {X : List γ} {k : Nat} {z v : γ} {Z : List γ} {p : Int} (hp : p = X.length) :
    wr (X ++ List.replicate (k + 1) z ++ Z) p v = .ok (X ++ [v] ++ List.replicate k z ++ Z) := by
  have e : X ++ List.replicate (k + 1) z ++ Z = X ++ z :: (List.replicate k z ++ Z) := by simp [List.replicate_succ]
  rw [e, wr_at hp]
  simp

theorem extFillRow_ok [Zero α] (first last : Int) {K : Int} (re : List (List (Int × α))) (i : Nat) (hi : i < re.length) (W : List Int)
    (Xo Zo Xd Zd : List (Int × α)) :
    extFillRow first last (Csr.ofRows K re) (i : Int) (extMid W Xo Zo Xd Zd (otherRow first last re[i]).length (ownRow first last re[i]).length)
      = .ok (extMid W (Xo ++ otherRow first last re[i]) Zo (Xd ++ ownRow first last re[i]) Zd 0 0) := by
  unfold extFillRow
  rw [Csr.forRow_ofRows K re i hi _ _ (fun e (st : ExtArrays α × (Int × Int)) =>
    if isOther first last e.1 then do
      let temp ← wr st.1.temp st.2.1 e.1
      let oj ← wr st.1.offdJ st.2.1 e.1
      let od ← wr st.1.offdData st.2.1 e.2
      .ok ({ st.1 with temp := temp, offdJ := oj, offdData := od }, (st.2.1 + 1, st.2.2))
    else do
      let dj ← wr st.1.diagJ st.2.2 (e.1 - first)
      let dd ← wr st.1.diagData st.2.2 e.2
      .ok ({ st.1 with diagJ := dj, diagData := dd }, (st.2.1, st.2.2 + 1)))]
  · generalize re[i] = r
    induction r generalizing Xo Xd with
    | nil => simp [ownRow, otherRow]
    | cons e r ih =>
      rw [List.foldlM_cons]
      by_cases h : isOther first last e.1 = true
      · have e1 : otherRow first last (e :: r) = e :: otherRow first last r := by simp [otherRow, h]
        have e2 : ownRow first last (e :: r) = ownRow first last r := by simp [ownRow, h]
        rw [if_pos h, e1, e2]
        have : Xo ++ e :: otherRow first last r = (Xo ++ [e]) ++ otherRow first last r := by simp
        rw [this, ← ih (Xo ++ [e]) Xd]
        unfold extMid
        simp only [List.length_cons]
        rw [wr_hole (by simp), ok_bind, wr_hole (by simp), ok_bind, wr_hole (by simp), ok_bind]
        simp
      · have h' : isOther first last e.1 = false := by simpa using h
        have e1 : otherRow first last (e :: r) = otherRow first last r := by simp [otherRow, h']
        have e2 : ownRow first last (e :: r) = (e.1 - first, e.2) :: ownRow first last r := by simp [ownRow, h']
        rw [if_neg h, e1, e2]
        have : Xd ++ (e.1 - first, e.2) :: ownRow first last r = (Xd ++ [(e.1 - first, e.2)]) ++ ownRow first last r := by simp
        rw [this, ← ih Xo (Xd ++ [(e.1 - first, e.2)])]
        unfold extMid
        simp only [List.length_cons]
        rw [wr_hole (by simp), ok_bind, wr_hole (by simp), ok_bind]
        simp
  · intro m hm s
    rw [rd_indices_ofRows K re i m hi hm, ok_bind, rd_data_ofRows K re i m hi hm, ok_bind]

/-- The rows of which some are stored; zeros elsewhere. -/
def part [Zero α] (rs : List (List (Int × α))) (d : Nat → Bool) : List (Int × α) :=
  mix rs.length (fun i => rs.getD i []) (fun i => List.replicate (rs.getD i []).length (0, 0)) d

theorem part_all [Zero α] (rs : List (List (Int × α))) {n : Nat} (hn : rs.length = n) : part rs (fun i => decide (i < n)) = rs.flatten := by
  subst hn
  unfold part
  rw [mix_all, range_flatMap_getD rs _ le_rfl, List.take_length]

theorem part_none [Zero α] (rs : List (List (Int × α))) : part rs (fun _ => false) = List.replicate rs.flatten.length (0, 0) := by
  unfold part
  rw [mix_none, range_flatMap_replicate]

theorem part_split [Zero α] (rs : List (List (Int × α))) {d : Nat → Bool} {i : Nat} (hi : i < rs.length) (hd : d i = false) :
    ∃ X Z, X.length = (rs.take i).flatten.length ∧ part rs d = X ++ List.replicate rs[i].length (0, 0) ++ Z ∧
      part rs (Function.update d i true) = X ++ rs[i] ++ Z := by
  obtain ⟨X, Z, h1, h2, h3⟩ := mix_split (F := fun i => rs.getD i []) (G := fun i => List.replicate (rs.getD i []).length ((0 : Int), (0 : α))) rs rfl
    (by simp) (by simp) hi hd
  refine ⟨X, Z, h1, ?_, ?_⟩
  · unfold part; rw [h2]; simp [List.getD_eq_getElem?_getD, List.getElem?_eq_getElem hi]
  · unfold part; rw [h3]; simp [List.getD_eq_getElem?_getD, List.getElem?_eq_getElem hi]

theorem rd_ptrs_begin {n T : Nat} (hT : 0 < T) (rs : List (List β)) (hn : rs.length = n) {t : Nat} (ht : t < T) :
    rd (ptrs rs) (threadBegin (n : Int) (T : Int) (t : Int)) = .ok (pre rs (rowOf n T t)) := by
  have h1 := rowOf_mono n T ht.le
  rw [rowOf_last hT] at h1
  rw [threadBegin_eq, rd_ptrs rs _ (by omega)]
  rfl

theorem splitExtT_ok [Zero α] {T : Nat} (hT : 0 < T) {S : Schedules} (srt : Csr.Sorter) (hs : IsSort srt) (search : List Int → Int → Int) {A B : ParMat α}
    {K : Int} {re : List (List (Int × α))} (hn : A.offd.cols = re.length) (h1 : Complete A.offd.cols T S.extCount) (h2 : Complete A.offd.cols T S.extAdd)
    (h3 : Complete A.offd.cols T S.extFill) (h4 : Complete A.offd.cols T S.extMap) {first : Int} (hf : rd B.colStarts 0 = .ok first) :
    splitExtT T S srt search A B (Csr.ofRows K re) = splitExt srt search A B (Csr.ofRows K re) := by
  obtain ⟨mapC, g1, m1, -, -⟩ := splitExt_map srt hs search (A := A) (B := B) (K := K) (re := re) hn hf
  rw [hn] at h1 h2 h3 h4
  generalize hlast : first + B.diag.cols - 1 = last at g1 m1
  generalize hrd : re.map (ownRow first last) = rd' at g1
  generalize hro : re.map (otherRow first last) = ro at g1 m1
  have ld : rd'.length = re.length := by rw [← hrd]; simp
  have lo : ro.length = re.length := by rw [← hro]; simp
  have gd : ∀ i (h1 : i < rd'.length) (h2 : i < re.length), rd'[i] = ownRow first last re[i] := by
    intro i h1 h2; simp [← hrd]
  have go : ∀ i (h1 : i < ro.length) (h2 : i < re.length), ro[i] = otherRow first last re[i] := by
    intro i h1 h2; simp [← hro]
  unfold splitExtT
  rw [hn, hf]
  simp only [ok_bind]
  rw [hlast, threadPtrs_ok hT h1 h2 (row := extCountRow first last (Csr.ofRows K re)) (cnt := fun s => s) (p0 := ((0 : Int), (0 : Int))) (rsd := rd') (rso := ro) ld lo
    (fun _ => True) trivial rfl (by
    intro i a1 a2 p _
    refine ⟨_, extCountRow_ok first last re i (by omega) p, trivial, ?_⟩
    rw [gd i a1 (by omega), go i a2 (by omega)]), ok_bind]
  simp only
  have r1 : rd (ptrs rd') (re.length : Int) = .ok ((rd'.flatten.length : Nat) : Int) := by
    rw [← ld, rd_ptrs rd' _ le_rfl, List.take_length]
  have r2 : rd (ptrs ro) (re.length : Int) = .ok ((ro.flatten.length : Nat) : Int) := by
    rw [← lo, rd_ptrs ro _ le_rfl, List.take_length]
  have q2 : mkVec (((ro.flatten.length : Nat) : Int) + (B.colMap.length : Int)) (0 : Int)
      = .ok (List.replicate (ro.flatten.length + B.colMap.length) 0) := by
    have := mkVec_nat (ro.flatten.length + B.colMap.length) (0 : Int)
    rw [Nat.cast_add] at this; exact this
  rw [r1, ok_bind, r2, ok_bind, mkVec_nat, ok_bind, mkVec_nat, ok_bind, mkVec_nat, ok_bind, mkVec_nat, ok_bind, q2, ok_bind]
  have m : (List.range T).mapM (fun (t : Nat) => do
      let o ← rd (ptrs ro) (threadBegin (re.length : Int) T t)
      let d ← rd (ptrs rd') (threadBegin (re.length : Int) T t)
      (.ok (o, d) : Res (Int × Int)))
      = .ok ((List.range T).map (fun t => (pre ro (rowOf re.length T t), pre rd' (rowOf re.length T t)))) := by
    apply mapM_ok
    intro t ht
    rw [List.mem_range] at ht
    rw [rd_ptrs_begin hT ro lo ht, ok_bind, rd_ptrs_begin hT rd' ld ht, ok_bind]
  rw [m, ok_bind]
  obtain ⟨f, ps, e1, -, e2, -⟩ := threadFor_ok hT h3
    (s := ExtArrays.mk (List.replicate (ro.flatten.length + B.colMap.length) 0) (List.replicate ro.flatten.length 0)
      (List.replicate ro.flatten.length (0 : α)) (List.replicate rd'.flatten.length 0) (List.replicate rd'.flatten.length (0 : α)))
    (privs := (List.range T).map (fun t => (pre ro (rowOf re.length T t), pre rd' (rowOf re.length T t)))) (by simp)
    (body := extFillRow first last (Csr.ofRows K re))
    (fun d s => s = ⟨(part ro d).map Prod.fst ++ List.replicate B.colMap.length 0, (part ro d).map Prod.fst, (part ro d).map Prod.snd,
      (part rd' d).map Prod.fst, (part rd' d).map Prod.snd⟩)
    (fun _ i p => p = (pre ro i, pre rd' i))
    (by rw [part_none, part_none, List.map_replicate, List.map_replicate, List.map_replicate, List.map_replicate, ← List.replicate_add]) (by intro t ht; simp) (by
      rintro t ht i d s p hi1 hi2 hin hdi rfl rfl
      obtain ⟨Xo, Zo, a1, a2, a3⟩ := part_split ro (i := i) (by omega) hdi
      obtain ⟨Xd, Zd, b1, b2, b3⟩ := part_split rd' (i := i) (by omega) hdi
      have := extFillRow_ok first last (K := K) re i hin (Zo.map Prod.fst ++ List.replicate B.colMap.length 0) Xo Zo Xd Zd
      rw [← gd i (by omega) hin, ← go i (by omega) hin] at this
      refine ⟨_, _, Eq.trans ?_ this, ?_, ?_⟩
      · congr 1
        unfold extMid pre
        rw [a2, b2, ← a1, ← b1]
        simp
      · rw [a3, b3]
        simp [extMid]
      · rw [pre_succ ro (by omega), pre_succ rd' (by omega)]
        unfold pre
        rw [← a1, ← b1]
        simp)
  rw [e1, ok_bind, e2]
  simp only
  rw [part_all ro lo, part_all rd' ld]
  have e3 : ro.flatten.map Prod.fst ++ List.replicate B.colMap.length 0 = padTo (ro.flatten.length + B.colMap.length) 0 (ro.flatten.map Prod.fst) := by
    unfold padTo
    rw [List.length_map, Nat.add_sub_cancel_left]
  rw [e3, m1, ok_bind]
  obtain ⟨g, ps', k1, -, k2, -⟩ := threadFor_ok hT h4 (s := ro.flatten.map Prod.fst) (privs := List.replicate T ()) (by simp)
    (body := fun i st => do
      let oj ← extMapRow (search mapC) (ptrs ro) i st.1
      .ok (oj, ()))
    (fun d s => s = mix ro.length (fun i => ((ro.getD i []).map Prod.fst).map (search mapC)) (fun i => (ro.getD i []).map Prod.fst) d)
    (fun _ _ _ => True)
    (by
      rw [mix_none]
      have := range_flatMap_getD ro ro.length le_rfl
      rw [List.take_length] at this
      rw [← this, List.map_flatMap]) (by intro t ht; trivial) (by
      rintro t ht i d s p hi1 hi2 hin hdi rfl -
      have hil : i < ro.length := by omega
      obtain ⟨X, Z, a1, a2, a3⟩ := mix_split (F := fun i => ((ro.getD i []).map Prod.fst).map (search mapC)) (G := fun i => (ro.getD i []).map Prod.fst)
        ro rfl (by simp) (by simp) hil hdi
      refine ⟨_, (), ?_, rfl, trivial⟩
      simp only
      rw [a2, a3]
      unfold extMapRow
      rw [rd_ptrs ro i (by omega), ok_bind, rd_ptrs_succ ro i hil, ok_bind]
      have := mapLoop (search mapC) X (ro[i].map Prod.fst) Z
      simp only [List.length_map] at this
      have hg : ro.getD i [] = ro[i] := by simp [List.getD_eq_getElem?_getD, List.getElem?_eq_getElem hil]
      rw [hg, ← a1, this, ok_bind])
  rw [k1, ok_bind, k2, ← lo, mix_all]
  have k3 : (List.range ro.length).flatMap (fun i => ((ro.getD i []).map Prod.fst).map (search mapC)) = (mapCols (search mapC) ro).flatten.map Prod.fst := by
    have := range_flatMap_getD (mapCols (search mapC) ro) ro.length (by simp [mapCols])
    rw [List.take_of_length_le (by simp [mapCols])] at this
    rw [← this, List.map_flatMap]
    apply List.flatMap_congr
    intro i hi
    rw [List.mem_range] at hi
    simp [mapCols, List.getD_eq_getElem?_getD, hi]
  rw [k3, g1]
  simp only [Csr.ofRows, mapCols_ptrs, mapCols_snd, lo, ld]
  simp [mapCols, lo]

/-! ## One row of the product, between any other rows -/

theorem rd_append_of {v w : List γ} {i : Int} {x : γ} (h : rd v i = .ok x) : rd (v ++ w) i = .ok x := by
  rw [rd_eq_ok] at h ⊢
  refine ⟨h.1, ?_⟩
  have hl : i.toNat < v.length := by
    by_contra hc
    rw [List.getElem?_eq_none (by omega)] at h
    simp at h
  rw [List.getElem?_append_left hl]
  exact h.2

theorem wr_append_of {v w v' : List γ} {i : Int} {x : γ} (h : wr v i x = .ok v') : wr (v ++ w) i x = .ok (v' ++ w) := by
  unfold wr at h ⊢
  split at h
  · rename_i hc
    rw [if_pos (by rw [List.length_append]; push_cast; omega), ← Except.ok.inj h, List.set_append_left _ _ (by omega)]
  · exact absurd h (by simp)

/-- The arrays of a block, longer. -/
def Side.app (S : Side α) (z : List (Int × α)) : Side α := ⟨S.cnt, S.ix ++ z.map Prod.fst, S.dt ++ z.map Prod.snd⟩

/-- The arrays of both blocks, longer. -/
def FillState.app (zd zo : List (Int × α)) (st : FillState α) : FillState α := ⟨st.marker, st.diag.app zd, st.offd.app zo⟩

theorem hit_app [Add α] {off b i3 : Int} {v : α} {mk : List Int} {S : Side α} {r : List Int × Side α} (z : List (Int × α))
    (h : S.hit off b i3 v mk = .ok r) : (S.app z).hit off b i3 v mk = .ok (r.1, r.2.app z) := by
  unfold Side.hit at h ⊢
  simp only [bind_eq_ok] at h ⊢
  obtain ⟨m, h1, h2⟩ := h
  refine ⟨m, h1, ?_⟩
  split at h2
  · rename_i hm
    simp only [bind_eq_ok] at h2
    obtain ⟨mk', h3, dt, h4, ix, h5, h6⟩ := h2
    rw [if_pos hm]
    simp only [bind_eq_ok]
    refine ⟨mk', h3, _, wr_append_of h4, _, wr_append_of h5, ?_⟩
    rw [← Except.ok.inj h6]
    rfl
  · rename_i hm
    simp only [bind_eq_ok] at h2
    obtain ⟨o, h3, dt, h4, h6⟩ := h2
    rw [if_neg hm]
    simp only [bind_eq_ok]
    refine ⟨o, rd_append_of h3, _, wr_append_of h4, ?_⟩
    rw [← Except.ok.inj h6]
    rfl

theorem hitDiag_app [Add α] {b i3 : Int} {v : α} {st st' : FillState α} (zd zo : List (Int × α)) (h : st.hitDiag b i3 v = .ok st') :
    (st.app zd zo).hitDiag b i3 v = .ok (st'.app zd zo) := by
  unfold FillState.hitDiag at h ⊢
  obtain ⟨r, h1, h2⟩ := bind_eq_ok.mp h
  unfold FillState.app
  simp only
  rw [hit_app zd h1, ← Except.ok.inj h2]
  rfl

theorem hitOffd_app [Add α] {off b i3 : Int} {v : α} {st st' : FillState α} (zd zo : List (Int × α)) (h : st.hitOffd off b i3 v = .ok st') :
    (st.app zd zo).hitOffd off b i3 v = .ok (st'.app zd zo) := by
  unfold FillState.hitOffd at h ⊢
  obtain ⟨r, h1, h2⟩ := bind_eq_ok.mp h
  unfold FillState.app
  simp only
  rw [hit_app zo h1, ← Except.ok.inj h2]
  rfl

theorem fillRow_app [Zero α] [Add α] [Mul α] {A B : ParMat α} {ed eo : Csr α} {mp : List Int} {sq : Bool} {i : Int}
    {st st' : FillState α} (zd zo : List (Int × α)) (h : fillRow A B ed eo mp sq i st = .ok st') :
    fillRow A B ed eo mp sq i (st.app zd zo) = .ok (st'.app zd zo) := by
  unfold fillRow at h ⊢
  simp only at h ⊢
  rw [bind_eq_ok] at h
  obtain ⟨s1, h1, h⟩ := h
  rw [bind_eq_ok] at h
  obtain ⟨s2, h2, h3⟩ := h
  rw [bind_eq_ok]
  refine ⟨s1.app zd zo, ?_, ?_⟩
  · cases sq
    · simp only [Bool.false_eq_true, if_false] at h1 ⊢
      rw [← Except.ok.inj h1]
    · simp only [if_true, bind_eq_ok] at h1 ⊢
      obtain ⟨mk, a1, dt, a2, ix, a3, a4⟩ := h1
      refine ⟨mk, a1, _, wr_append_of a2, _, wr_append_of a3, ?_⟩
      rw [← Except.ok.inj a4]
      rfl
  · rw [bind_eq_ok]
    refine ⟨s2.app zd zo, ?_, ?_⟩
    · by_cases hc : A.offd.cols ≠ 0
      · rw [if_pos hc] at h2 ⊢
        refine forRow_sim (FillState.app zd zo) ?_ h2
        intro jj s s' hs
        simp only [bind_eq_ok] at hs ⊢
        obtain ⟨i2, b1, a, b2, s3, b3, b4⟩ := hs
        refine ⟨i2, b1, a, b2, s3.app zd zo, forRow_sim (FillState.app zd zo) ?_ b3, forRow_sim (FillState.app zd zo) ?_ b4⟩
        · intro j t t' ht
          simp only [bind_eq_ok] at ht ⊢
          obtain ⟨c, d1, b, d2, d3⟩ := ht
          exact ⟨c, d1, b, d2, hitOffd_app zd zo d3⟩
        · intro j t t' ht
          simp only [bind_eq_ok] at ht ⊢
          obtain ⟨c, d1, b, d2, d3⟩ := ht
          exact ⟨c, d1, b, d2, hitDiag_app zd zo d3⟩
      · rw [if_neg hc] at h2 ⊢
        rw [← Except.ok.inj h2]
    · refine forRow_sim (FillState.app zd zo) ?_ h3
      intro jj s s' hs
      simp only [bind_eq_ok] at hs ⊢
      obtain ⟨i2, b1, a, b2, s3, b3, b4⟩ := hs
      refine ⟨i2, b1, a, b2, s3.app zd zo, forRow_sim (FillState.app zd zo) ?_ b3, ?_⟩
      · intro j t t' ht
        simp only [bind_eq_ok] at ht ⊢
        obtain ⟨c, d1, b, d2, d3⟩ := ht
        exact ⟨c, d1, b, d2, hitDiag_app zd zo d3⟩
      · by_cases hc : B.offd.cols ≠ 0
        · rw [if_pos hc] at b4 ⊢
          refine forRow_sim (FillState.app zd zo) ?_ b4
          intro j t t' ht
          simp only [bind_eq_ok] at ht ⊢
          obtain ⟨c, d1, m, dm, b, d2, d3⟩ := ht
          exact ⟨c, d1, m, dm, b, d2, hitOffd_app zd zo d3⟩
        · rw [if_neg hc] at b4 ⊢
          rw [← Except.ok.inj b4]

section
variable [Zero α] [Add α] [Mul α] {A B : ParMat α} {ed eo : Csr α} {mp : List Int} {sq : Bool} {N M : Nat}
    {rad rao rbd rbo red reo : List (List (Int × α))}

/-- The thread's own variables fit: markers are below the counters, as far as they matter. -/
structure Own (N M kd ko : Nat) (s : SizeState) : Prop where
  len : s.marker.length = N + M
  diag : s.diag = (kd : Int)
  offd : s.offd = (ko : Int)
  markD : MarkInv 0 N kd ([] : List (Int × Unit)) s.marker
  markO : MarkInv N M ko ([] : List (Int × Unit)) s.marker

omit [Zero α] [Add α] [Mul α] in
theorem markInv_nil {off K n : Nat} {mk : List Int} (h : MarkInv off K n ([] : List (Int × β)) mk) : MarkInv off K n ([] : List (Int × γ)) mk := by
  intro c hc
  obtain ⟨m, h1, h2⟩ := h c hc
  exact ⟨m, h1, by simpa using h2⟩

theorem Setup.row_any (S : Setup A B ed eo mp sq N M rad rao rbd rbo red reo) {i : Nat} (hi : i < rad.length) (Xd Zd Xo Zo : List (Int × α))
    {s : SizeState} (hs : Own N M Xd.length Xo.length s) {rd' ro' : List (Int × α)}
    (hd : rd' = (evSide false (allEvs sq mp rad rao rbd rbo red reo i)).foldl accum [])
    (ho : ro' = (evSide true (allEvs sq mp rad rao rbd rbo red reo i)).foldl accum []) :
    ∃ s', fillRow A B ed eo mp sq (i : Int) ⟨s.marker, ⟨s.diag, (Xd ++ List.replicate rd'.length (0, 0) ++ Zd).map Prod.fst, (Xd ++ List.replicate rd'.length (0, 0) ++ Zd).map Prod.snd⟩,
        ⟨s.offd, (Xo ++ List.replicate ro'.length (0, 0) ++ Zo).map Prod.fst, (Xo ++ List.replicate ro'.length (0, 0) ++ Zo).map Prod.snd⟩⟩
      = .ok ⟨s'.marker, ⟨s'.diag, (Xd ++ rd' ++ Zd).map Prod.fst, (Xd ++ rd' ++ Zd).map Prod.snd⟩,
        ⟨s'.offd, (Xo ++ ro' ++ Zo).map Prod.fst, (Xo ++ ro' ++ Zo).map Prod.snd⟩⟩ ∧
      Own N M (Xd.length + rd'.length) (Xo.length + ro'.length) s' := by
  have hi' : i < rao.length := by rw [S.len_a]; exact hi
  have h : FillInv N M (Xd.length + rd'.length) (Xo.length + ro'.length) Xd Xo
      ⟨s.marker, sideOf (Xd.length + rd'.length) Xd, sideOf (Xo.length + ro'.length) Xo⟩ := ⟨hs.len, rfl, rfl, markInv_nil hs.markD, markInv_nil hs.markO⟩
  have heq := fillRow_eq S i hi hi' h
  have e : rowEvs sq i reo red rbd (mapCols (vecAt mp) rbo) rao[i] rad[i] = allEvs sq mp rad rao rbd rbo red reo i := by
    unfold allEvs
    rw [List.getD_eq_getElem?_getD, List.getElem?_eq_getElem hi', List.getD_eq_getElem?_getD, List.getElem?_eq_getElem hi]
    rfl
  rw [e] at heq
  obtain ⟨o1, o2⟩ := S.evs_ok i hi
  obtain ⟨st', k1, k2⟩ := steps_ok h (allEvs sq mp rad rao rbd rbo red reo i) (by
    intro ev hev
    cases hs : ev.1 with
    | false => simpa [hs] using o1 _ (mem_evSide hev hs)
    | true => simpa [hs] using o2 _ (mem_evSide hev hs)) (by rw [hd]) (by rw [ho])
  rw [← hd, ← ho] at k2
  rw [k1] at heq
  have happ := fillRow_app Zd Zo heq
  refine ⟨⟨st'.marker, st'.diag.cnt, st'.offd.cnt⟩, ?_, k2.len, ?_, ?_, ?_, ?_⟩
  · have e1 : (⟨s.marker, ⟨s.diag, (Xd ++ List.replicate rd'.length (0, 0) ++ Zd).map Prod.fst, (Xd ++ List.replicate rd'.length (0, 0) ++ Zd).map Prod.snd⟩,
        ⟨s.offd, (Xo ++ List.replicate ro'.length (0, 0) ++ Zo).map Prod.fst, (Xo ++ List.replicate ro'.length (0, 0) ++ Zo).map Prod.snd⟩⟩ : FillState α)
        = FillState.app Zd Zo ⟨s.marker, sideOf (Xd.length + rd'.length) Xd, sideOf (Xo.length + ro'.length) Xo⟩ := by
      rw [hs.diag, hs.offd]
      simp [FillState.app, Side.app, sideOf, padTo]
    rw [e1, happ]
    congr 1
    unfold FillState.app
    rw [k2.diag, k2.offd]
    simp [Side.app, sideOf, padTo]
  · simp only
    rw [k2.diag]
    simp [sideOf]
  · simp only
    rw [k2.offd]
    simp [sideOf]
  · have := k2.markD
    rw [List.length_append] at this
    exact markInv_nil this
  · have := k2.markO
    rw [List.length_append] at this
    exact markInv_nil this

omit [Zero α] [Add α] [Mul α] in
theorem own_init (N M kd ko : Nat) : Own N M kd ko ⟨List.replicate (N + M) (-1), kd, ko⟩ where
  len := by simp
  diag := rfl
  offd := rfl
  markD := markInv_replicate _ _ _ _ (by omega)
  markO := markInv_replicate _ _ _ _ (by omega)

theorem getElem_resRows (s : Bool) {i : Nat} (hi : i < (resRows s sq mp rad rao rbd rbo red reo).length) :
    (resRows s sq mp rad rao rbd rbo red reo)[i] = (evSide s (allEvs sq mp rad rao rbd rbo red reo i)).foldl accum [] := by
  simp [resRows]

theorem Setup.rowSizesT_ok (S : Setup A B ed eo mp sq N M rad rao rbd rbo red reo) {T : Nat} (hT : 0 < T) {W : Schedules}
    (h1 : Complete A.diag.rows T W.count) (h2 : Complete A.diag.rows T W.add) :
    rowSizesT T W A B ed eo mp sq (M : Int) = rowSizes A B ed eo mp sq (M : Int) := by
  rw [S.rowSizes_ok]
  have hR : A.diag.rows = (rad.length : Int) := by rw [S.hAd]; rfl
  have hN : B.diag.cols = (N : Int) := by rw [S.hBd]; rfl
  unfold rowSizesT
  have q2 : mkVec ((N : Int) + (M : Int)) (-1 : Int) = .ok (List.replicate (N + M) (-1)) := by
    have := mkVec_nat (N + M) (-1 : Int); push_cast at this; exact this
  rw [hR] at h1 h2 ⊢
  rw [hN, q2, ok_bind]
  refine threadPtrs_ok hT h1 h2 (resRows_length false) (resRows_length true) (fun s => ∃ kd ko, Own N M kd ko s) ⟨0, 0, own_init N M 0 0⟩ rfl ?_
  rintro i a1 a2 s ⟨kd, ko, hs⟩
  rw [getElem_resRows, getElem_resRows]
  rw [resRows_length] at a1
  obtain ⟨s', b1, b2⟩ := S.row_any a1 (List.replicate kd (0, 0)) [] (List.replicate ko (0, 0)) [] (by simpa using hs) rfl rfl
  refine ⟨s', sizeRow_sim b1, ⟨_, _, b2⟩, ?_⟩
  rw [b2.diag, b2.offd, hs.diag, hs.offd]
  simp

theorem Setup.fillT (S : Setup A B ed eo mp sq N M rad rao rbd rbo red reo) {T : Nat} (hT : 0 < T) {sched : List Nat}
    (h : Complete (rad.length : Int) T sched) {rsd rso : List (List (Int × α))}
    (hd : rsd = resRows false sq mp rad rao rbd rbo red reo) (ho : rso = resRows true sq mp rad rao rbd rbo red reo) :
    ∃ ps, threadFor (rad.length : Int) T sched (FillArrays.mk (List.replicate rsd.flatten.length 0) (List.replicate rsd.flatten.length (0 : α))
        (List.replicate rso.flatten.length 0) (List.replicate rso.flatten.length (0 : α)))
        ((List.range T).map (fun t => SizeState.mk (List.replicate (N + M) (-1)) (pre rsd (rowOf rad.length T t)) (pre rso (rowOf rad.length T t))))
        (fillRowT A B ed eo mp sq)
      = .ok (⟨rsd.flatten.map Prod.fst, rsd.flatten.map Prod.snd, rso.flatten.map Prod.fst, rso.flatten.map Prod.snd⟩, ps) := by
  have ld : rsd.length = rad.length := by rw [hd, resRows_length]
  have lo : rso.length = rad.length := by rw [ho, resRows_length]
  obtain ⟨f, ps, e1, -, e2, -⟩ := threadFor_ok hT h
    (s := FillArrays.mk (List.replicate rsd.flatten.length 0) (List.replicate rsd.flatten.length (0 : α))
        (List.replicate rso.flatten.length 0) (List.replicate rso.flatten.length (0 : α)))
    (privs := (List.range T).map (fun t => SizeState.mk (List.replicate (N + M) (-1)) (pre rsd (rowOf rad.length T t)) (pre rso (rowOf rad.length T t))))
    (by simp) (body := fillRowT A B ed eo mp sq)
    (fun d s => s = ⟨(part rsd d).map Prod.fst, (part rsd d).map Prod.snd, (part rso d).map Prod.fst, (part rso d).map Prod.snd⟩)
    (fun _ i p => Own N M (rsd.take i).flatten.length (rso.take i).flatten.length p)
    (by rw [part_none, part_none, List.map_replicate, List.map_replicate, List.map_replicate, List.map_replicate]) (by
      intro t ht
      simp only [List.getElem_map, List.getElem_range]
      exact own_init N M _ _) (by
      rintro t ht i d s p hi1 hi2 hin hdi rfl hp
      obtain ⟨Xd, Zd, b1, b2, b3⟩ := part_split rsd (i := i) (by omega) hdi
      obtain ⟨Xo, Zo, a1, a2, a3⟩ := part_split rso (i := i) (by omega) hdi
      rw [← a1, ← b1] at hp
      obtain ⟨s', c1, c2⟩ := S.row_any hin Xd Zd Xo Zo hp (rd' := rsd[i]) (ro' := rso[i])
        (by subst hd; exact getElem_resRows _ _) (by subst ho; exact getElem_resRows _ _)
      refine ⟨_, s', ?_, rfl, ?_⟩
      · unfold fillRowT
        simp only
        rw [a2, b2, c1, ok_bind, a3, b3]
      · rw [take_succ_flatten_length rsd i (by omega), take_succ_flatten_length rso i (by omega), ← a1, ← b1]
        exact c2)
  refine ⟨ps, ?_⟩
  rw [e1, e2, part_all rsd ld, part_all rso lo]

end

end Par
end Linalg
