import Verif.Proof.InPlace

/-! # Transpose: helper lemmas -/

namespace Linalg
open Cpp

variable {α β γ σ R : Type}

/-- A list that agrees with the concatenation `rs.flatten` position by position is that concatenation. -/
theorem eq_map_flatten {f : β → γ} (rs : List (List β)) (L : List γ)
    (hl : L.length = rs.flatten.length)
    (h : ∀ (c m : Nat) (hc : c < rs.length) (hm : m < rs[c].length),
      L[(rs.take c).flatten.length + m]? = some (f rs[c][m])) :
    L = rs.flatten.map f := by
  induction rs using List.reverseRecOn generalizing L with
  | nil => simpa using hl
  | append_singleton rs r ih =>
    have hl' : L.length = rs.flatten.length + r.length := by
      rw [hl, List.flatten_append, List.length_append]; simp [-List.length_flatten]
    have e1 : L.take rs.flatten.length = rs.flatten.map f := by
      apply ih
      · rw [List.length_take]; omega
      · intro c m hc hm
        have hc' : c < (rs ++ [r]).length := by simp; omega
        have hget : (rs ++ [r])[c] = rs[c] := List.getElem_append_left hc
        have := h c m hc' (by rw [hget]; exact hm)
        rw [List.take_append_of_le_length (by omega)] at this
        have hlt : (rs.take c).flatten.length + m < rs.flatten.length := by
          have h3 := take_succ_flatten_length rs c hc
          have h4 : (rs.take (c + 1)).flatten.length ≤ rs.flatten.length := by
            have : rs.flatten = (rs.take (c + 1)).flatten ++ (rs.drop (c + 1)).flatten := by
              rw [← List.flatten_append, List.take_append_drop]
            rw [this, List.length_append]; omega
          omega
        rw [List.getElem?_take_of_lt hlt, this]
        congr 2
        simp only [hget]
    have e2 : L.drop rs.flatten.length = r.map f := by
      apply List.ext_getElem?
      intro m
      rw [List.getElem?_drop]
      by_cases hm : m < r.length
      · have hc' : rs.length < (rs ++ [r]).length := by simp
        have hget : (rs ++ [r])[rs.length] = r := by simp
        have := h rs.length m hc' (by rw [hget]; exact hm)
        rw [List.take_left] at this
        rw [this, List.getElem?_map, List.getElem?_eq_getElem hm]
        simp only [hget, Option.map_some]
      · rw [List.getElem?_eq_none (by omega), List.getElem?_eq_none (by simp; omega)]
    rw [← List.take_append_drop rs.flatten.length L, e1, e2]
    simp

/-- The triples of column `c`, as (row, value). -/
def bucket (T : List (Int × Int × α)) (c : Int) : List (Int × α) :=
  (T.filter (fun t => t.2.1 = c)).map (fun t => (t.1, t.2.2))

theorem bucket_append (T S : List (Int × Int × α)) (c : Int) :
    bucket (T ++ S) c = bucket T c ++ bucket S c := by simp [bucket]

theorem bucket_singleton (t : Int × Int × α) (c : Int) :
    bucket [t] c = if t.2.1 = c then [(t.1, t.2.2)] else [] := by
  unfold bucket; by_cases h : t.2.1 = c <;> simp [h]

/-- The rows of the transpose. -/
def trRows (T : List (Int × Int × α)) (N : Nat) : List (List (Int × α)) :=
  (List.range N).map (fun c : Nat => bucket T (c : Int))

@[simp] theorem length_trRows (T : List (Int × Int × α)) (N : Nat) : (trRows T N).length = N := by
  simp [trRows]

theorem getElem_trRows (T : List (Int × Int × α)) (N c : Nat) (h : c < (trRows T N).length) :
    (trRows T N)[c] = bucket T (c : Int) := by simp [trRows]

theorem trRows_succ (T : List (Int × Int × α)) (N : Nat) :
    trRows T (N + 1) = trRows T N ++ [bucket T (N : Int)] := by
  simp [trRows, List.range_succ]

theorem take_trRows (T : List (Int × Int × α)) (N k : Nat) (h : k ≤ N) :
    (trRows T N).take k = trRows T k := by
  simp only [trRows, ← List.map_take, List.take_range]
  congr 2; omega

theorem trRows_flatten_length (T : List (Int × Int × α)) (N : Nat) (h0 : ∀ t ∈ T, 0 ≤ t.2.1) :
    (trRows T N).flatten.length = (T.filter (fun t => t.2.1 < (N : Int))).length := by
  induction N with
  | zero =>
    simp only [trRows, List.range_zero, List.map_nil, List.flatten_nil, List.length_nil]
    symm
    rw [List.length_eq_zero_iff, List.filter_eq_nil_iff]
    intro t ht; have := h0 t ht; simp; omega
  | succ N ih =>
    rw [trRows_succ, List.flatten_append, List.length_append, ih]
    simp only [List.flatten_cons, List.flatten_nil, List.append_nil, bucket, List.length_map]
    clear ih h0
    induction T with
    | nil => rfl
    | cons t T ih =>
      simp only [List.filter_cons]
      have e1 : (t.2.1 < ((N + 1 : Nat) : Int)) ↔ (t.2.1 < (N : Int) ∨ t.2.1 = (N : Int)) := by
        push_cast; omega
      by_cases ha : t.2.1 < (N : Int)
      · have hb : ¬ t.2.1 = (N : Int) := by omega
        have hc := e1.mpr (Or.inl ha)
        simp only [ha, hb, hc, decide_true, decide_false, if_true, List.length_cons]
        simp only [Bool.false_eq_true, if_false]; omega
      · by_cases hb : t.2.1 = (N : Int)
        · have hc := e1.mpr (Or.inr hb)
          have h2 : ((N : Int) < ((N + 1 : Nat) : Int)) := by omega
          have h3 : ¬ ((N : Int) < (N : Int)) := by omega
          simp only [hb, h2, h3, decide_true, if_true, decide_false, Bool.false_eq_true, if_false,
            List.length_cons]; omega
        · have hc : ¬ (t.2.1 < ((N + 1 : Nat) : Int)) := by rw [e1]; tauto
          simp only [ha, hb, hc, decide_false, Bool.false_eq_true, if_false]; omega

theorem trRows_flatten_length' (T : List (Int × Int × α)) (N : Nat)
    (h : ∀ t ∈ T, 0 ≤ t.2.1 ∧ t.2.1 < (N : Int)) : (trRows T N).flatten.length = T.length := by
  rw [trRows_flatten_length T N (fun t ht => (h t ht).1), List.filter_eq_self.mpr]
  intro t ht; simp [(h t ht).2]

theorem base_succ (T : List (Int × Int × α)) (c : Nat) :
    (trRows T (c + 1)).flatten.length = (trRows T c).flatten.length + (bucket T (c : Int)).length := by
  rw [trRows_succ, List.flatten_append, List.length_append]
  simp [-List.length_flatten]

theorem base_mono (T : List (Int × Int × α)) {a b : Nat} (h : a ≤ b) :
    (trRows T a).flatten.length ≤ (trRows T b).flatten.length := by
  induction b with
  | zero => have : a = 0 := by omega
            subst this; exact le_rfl
  | succ b ih =>
    rcases Nat.lt_or_ge a (b + 1) with hlt | hge
    · have := ih (by omega); rw [base_succ]; omega
    · have : a = b + 1 := by omega
      subst this; exact le_rfl

/-! ## Pass 1: counting -/

theorem count_pass (l : List Int) (N : Nat) (h : ∀ c ∈ l, 0 ≤ c ∧ c < (N : Int)) :
    ∃ p : List Int, l.foldlM (fun (p : List Int) (col : Int) => do
        let x ← rd p (col + 1)
        wr p (col + 1) (x + 1)) (List.replicate (N + 1) (0 : Int)) = (.ok p : Res (List Int)) ∧
      p.length = N + 1 ∧ p[0]? = some 0 ∧
      ∀ c < N, p[c + 1]? = some (((l.filter (fun x => x = (c : Int))).length : Nat) : Int) := by
  obtain ⟨p, h1, h2, h3, h4⟩ := foldlM_inv (l := l) (f := fun (p : List Int) (col : Int) => (do
        let x ← rd p (col + 1)
        wr p (col + 1) (x + 1) : Res (List Int)))
    (fun pre (p : List Int) => p.length = N + 1 ∧ p[0]? = some 0 ∧
      ∀ c < N, p[c + 1]? = some (((pre.filter (fun x => x = (c : Int))).length : Nat) : Int))
    (s := List.replicate (N + 1) (0 : Int))
    ⟨by simp, by simp, by intro c hc; simp [hc]⟩ (by
      intro pre x post p hl ⟨hp1, hp2, hp3⟩
      have hx := h x (by rw [hl]; simp)
      obtain ⟨k, rfl⟩ : ∃ k : Nat, x = (k : Int) := ⟨x.toNat, by omega⟩
      have hk : k < N := by omega
      have hrd : rd p ((k : Int) + 1) = .ok (((pre.filter (fun x => x = (k : Int))).length : Nat) : Int) := by
        rw [rd_eq_ok]; refine ⟨by omega, ?_⟩
        have : ((k : Int) + 1).toNat = k + 1 := by omega
        rw [this]; exact hp3 k hk
      rw [hrd]
      simp only [ok_bind]
      refine ⟨_, wr_int (by omega) (by omega), by simp [hp1], ?_, ?_⟩
      · have : ((k : Int) + 1).toNat = k + 1 := by omega
        rw [this, List.getElem?_set]; simp [hp2]
      · intro c hc
        have : ((k : Int) + 1).toNat = k + 1 := by omega
        rw [this, List.getElem?_set]
        by_cases e : k = c
        · subst e
          rw [if_pos rfl, if_pos (by omega)]
          simp
        · rw [if_neg (by omega), hp3 c hc]
          have : ¬ ((k : Int) = (c : Int)) := by omega
          simp [this])
  exact ⟨p, h1, h2, h3, h4⟩

/-! ## Pass 2: prefix sums -/

theorem prefix_pass (rs : List (List β)) (p : List Int) (hl : p.length = rs.length + 1)
    (h0 : p[0]? = some 0)
    (hp : ∀ (c : Nat) (hc : c < rs.length), p[c + 1]? = some ((rs[c].length : Nat) : Int)) :
    forUp 0 (rs.length : Int) p (fun i p => do
      let x ← rd p (i + 1)
      let y ← rd p i
      wr p (i + 1) (x + y)) = .ok (ptrs rs) := by
  obtain ⟨q, h1, h2, h3, h4⟩ := forUp_inv_nat (n := rs.length) (f := fun i p => (do
      let x ← rd p (i + 1)
      let y ← rd p i
      wr p (i + 1) (x + y) : Res (List Int)))
    (fun i (q : List Int) => q.length = rs.length + 1 ∧
      (∀ k ≤ i, q[k]? = some (((rs.take k).flatten.length : Nat) : Int)) ∧
      (∀ k, i < k → q[k]? = p[k]?)) (s := p)
    ⟨hl, by intro k hk; have : k = 0 := by omega
            subst this; simpa using h0, by intros; rfl⟩ (by
      intro i q hi ⟨hq1, hq2, hq3⟩
      have e1 : rd q ((i : Int) + 1) = .ok ((rs[i].length : Nat) : Int) := by
        rw [rd_eq_ok]; refine ⟨by omega, ?_⟩
        have : ((i : Int) + 1).toNat = i + 1 := by omega
        rw [this, hq3 (i + 1) (by omega), hp i hi]
      have e2 : rd q (i : Int) = .ok (((rs.take i).flatten.length : Nat) : Int) := by
        rw [rd_eq_ok]; refine ⟨by omega, ?_⟩
        simpa using hq2 i le_rfl
      rw [e1, e2]
      simp only [ok_bind]
      refine ⟨_, wr_int (by omega) (by omega), by simp [hq1], ?_, ?_⟩
      · intro k hk
        have : ((i : Int) + 1).toNat = i + 1 := by omega
        rw [this, List.getElem?_set]
        by_cases e : i + 1 = k
        · subst e
          rw [if_pos rfl, if_pos (by omega), take_succ_flatten_length rs i hi]
          congr 1; push_cast; ring
        · rw [if_neg e]; exact hq2 k (by omega)
      · intro k hk
        have : ((i : Int) + 1).toNat = i + 1 := by omega
        rw [this, List.getElem?_set, if_neg (by omega)]
        exact hq3 k (by omega))
  rw [h1]
  congr 1
  apply List.ext_getElem?
  intro k
  by_cases hk : k ≤ rs.length
  · rw [h3 k hk, List.getElem?_eq_getElem (by simp; omega), getElem_ptrs]
  · rw [List.getElem?_eq_none (by omega), List.getElem?_eq_none (by simp; omega)]

/-! ## Pass 3: scatter -/

theorem scatter_pass (T : List (Int × Int × α)) (N : Nat)
    (h : ∀ t ∈ T, 0 ≤ t.2.1 ∧ t.2.1 < (N : Int)) (ix : List Int) (dt : List α)
    (hix : ix.length = T.length) (hdt : dt.length = T.length) :
    ∃ p, T.foldlM (fun (out : List Int × List Int × List α) t => (do
        let k ← rd out.1 t.2.1
        let ix ← wr out.2.1 k t.1
        let dt ← wr out.2.2 k t.2.2
        let p ← wr out.1 t.2.1 (k + 1)
        .ok (p, ix, dt) : Res (List Int × List Int × List α))) (ptrs (trRows T N), ix, dt)
      = .ok (p, (trRows T N).flatten.map Prod.fst, (trRows T N).flatten.map Prod.snd) ∧
      p.length = N + 1 ∧
      ∀ c < N, p[c]? = some (((trRows T (c + 1)).flatten.length : Nat) : Int) := by
  obtain ⟨⟨p, ix', dt'⟩, h1, ⟨hp, hp', hil, hdl, hi, hd⟩⟩ := foldlM_inv (l := T)
    (f := fun (out : List Int × List Int × List α) t => (do
        let k ← rd out.1 t.2.1
        let ix ← wr out.2.1 k t.1
        let dt ← wr out.2.2 k t.2.2
        let p ← wr out.1 t.2.1 (k + 1)
        .ok (p, ix, dt) : Res (List Int × List Int × List α)))
    (fun pre (s : List Int × List Int × List α) =>
      s.1.length = N + 1 ∧
      (∀ c < N, s.1[c]? = some (((trRows T c).flatten.length + (bucket pre (c : Int)).length : Nat) : Int)) ∧
      s.2.1.length = T.length ∧ s.2.2.length = T.length ∧
      (∀ c < N, ∀ (m : Nat) (hm : m < (bucket pre (c : Int)).length),
        s.2.1[(trRows T c).flatten.length + m]? = some (bucket pre (c : Int))[m].1) ∧
      (∀ c < N, ∀ (m : Nat) (hm : m < (bucket pre (c : Int)).length),
        s.2.2[(trRows T c).flatten.length + m]? = some (bucket pre (c : Int))[m].2))
    (s := (ptrs (trRows T N), ix, dt))
    ⟨by simp, by
      intro c hc
      simp only
      rw [List.getElem?_eq_getElem (by simp; omega), getElem_ptrs, take_trRows T N c hc.le]
      simp [bucket, -List.length_flatten], hix, hdt,
      by intro c hc m hm; simp [bucket] at hm, by intro c hc m hm; simp [bucket] at hm⟩ (by
      rintro pre t post ⟨p, ix, dt⟩ hl ⟨hp, hp', hil, hdl, hi, hd⟩
      simp only at hp hp' hil hdl hi hd
      have ht := h t (by rw [hl]; simp)
      obtain ⟨c, hc⟩ : ∃ c : Nat, t.2.1 = (c : Int) := ⟨t.2.1.toNat, by omega⟩
      have hcN : c < N := by omega
      have hrd : rd p t.2.1
          = .ok (((trRows T c).flatten.length + (bucket pre (c : Int)).length : Nat) : Int) := by
        rw [rd_eq_ok]; refine ⟨by omega, ?_⟩
        have : t.2.1.toNat = c := by omega
        rw [this]; exact hp' c hcN
      have hbT : ∀ d : Int, bucket T d = bucket pre d ++ bucket [t] d ++ bucket post d := by
        intro d; rw [hl, ← bucket_append, ← bucket_append]; simp
      have hlt : (bucket pre (c : Int)).length < (bucket T (c : Int)).length := by
        rw [hbT, bucket_singleton, if_pos hc]; simp
      have hle : (trRows T (c + 1)).flatten.length ≤ T.length := by
        rw [← trRows_flatten_length' T N h]; exact base_mono T (by omega)
      have hbs := base_succ T c
      simp only [hrd, ok_bind]
      rw [wr_nat (by omega), ok_bind, wr_nat (by omega), ok_bind, hc, wr_nat (by omega), ok_bind]
      refine ⟨_, rfl, by simp [hp], ?_, by simp [hil], by simp [hdl], ?_, ?_⟩
      · intro c' hc'
        simp only
        rw [List.getElem?_set, bucket_append, bucket_singleton]
        by_cases e : c = c'
        · subst e
          rw [if_pos rfl, if_pos (by omega), if_pos hc]
          simp only [List.length_append, List.length_singleton]
          congr 1
        · rw [if_neg e, if_neg (by omega), List.append_nil]
          exact hp' c' hc'
      all_goals
        intro c' hc' m hm
        simp only
        rw [List.getElem?_set]
        have hm' := hm
        rw [bucket_append, bucket_singleton] at hm'
        by_cases e : c = c'
        · subst e
          rw [if_pos hc] at hm'
          simp only [List.length_append, List.length_singleton] at hm'
          have hb : bucket (pre ++ [t]) (c : Int) = bucket pre (c : Int) ++ [(t.1, t.2.2)] := by
            rw [bucket_append, bucket_singleton, if_pos hc]
          by_cases em : m = (bucket pre (c : Int)).length
          · subst em
            rw [if_pos rfl, if_pos (by omega)]
            simp [hb]
          · rw [if_neg (by omega)]
            first
              | rw [hi c hcN m (by omega)]
              | rw [hd c hcN m (by omega)]
            congr 2
            simp only [hb]
            rw [List.getElem_append_left (by omega)]
        · have hne : ¬ t.2.1 = (c' : Int) := by omega
          rw [if_neg hne, List.append_nil] at hm'
          have hb : bucket (pre ++ [t]) (c' : Int) = bucket pre (c' : Int) := by
            rw [bucket_append, bucket_singleton, if_neg hne, List.append_nil]
          have hlt' : (bucket pre (c' : Int)).length ≤ (bucket T (c' : Int)).length := by
            rw [hbT]; simp only [List.length_append]; omega
          have hbs' := base_succ T c'
          have hpos : ¬ ((trRows T c).flatten.length + (bucket pre (c : Int)).length
              = (trRows T c').flatten.length + m) := by
            rcases Nat.lt_or_gt_of_ne e with h1 | h1
            · have := base_mono T (a := c + 1) (b := c') (by omega); omega
            · have := base_mono T (a := c' + 1) (b := c) (by omega); omega
          rw [if_neg hpos]
          first
            | rw [hi c' hc' m hm']
            | rw [hd c' hc' m hm']
          congr 2
          simp only [hb])
  simp only at hp hp' hil hdl hi hd
  refine ⟨p, ?_, hp, ?_⟩
  · rw [h1]
    congr 3
    · apply eq_map_flatten
      · rw [hil, trRows_flatten_length' T N h]
      · intro c m hc hm
        simp only [length_trRows] at hc
        simp only [getElem_trRows] at hm ⊢
        rw [take_trRows T N c hc.le]
        exact hi c hc m hm
    · apply eq_map_flatten
      · rw [hdl, trRows_flatten_length' T N h]
      · intro c m hc hm
        simp only [length_trRows] at hc
        simp only [getElem_trRows] at hm ⊢
        rw [take_trRows T N c hc.le]
        exact hd c hc m hm
  · intro c hc
    rw [hp' c hc, base_succ]

/-! ## Pass 4: shifting the pointers back -/

theorem shift_pass (p : List Int) (N : Nat) (hl : p.length = N + 1) :
    ∃ q, forDown (N : Int) 0 p (fun i p => do
        let x ← rd p (i - 1)
        wr p i x) = .ok q ∧ q.length = N + 1 ∧ ∀ c < N, q[c + 1]? = p[c]? := by
  unfold forDown
  have e : (N : Int) - 0 = (N : Int) := by omega
  rw [e]
  obtain ⟨q, h1, h2, h3, h4⟩ := forUp_inv_nat (n := N) (f := fun k p => (do
        let x ← rd p ((N : Int) - k - 1)
        wr p ((N : Int) - k) x : Res (List Int)))
    (fun k (q : List Int) => q.length = N + 1 ∧ (∀ c, N - k ≤ c → c < N → q[c + 1]? = p[c]?) ∧
      (∀ c ≤ N - k, q[c]? = p[c]?)) (s := p)
    ⟨hl, by intro c h1 h2; omega, by intros; rfl⟩ (by
      intro k q hk ⟨hq1, hq2, hq3⟩
      obtain ⟨M, hM⟩ : ∃ M : Nat, N - k = M + 1 := ⟨N - k - 1, by omega⟩
      have e1 : (N : Int) - (k : Int) - 1 = (M : Int) := by omega
      have e2 : (N : Int) - (k : Int) = ((M + 1 : Nat) : Int) := by omega
      rw [e1, e2]
      have hrd : rd q (M : Int) = .ok (q[M]'(by omega)) := rd_nat (by omega)
      rw [hrd]
      simp only [ok_bind]
      refine ⟨_, wr_nat (by omega), by simp [hq1], ?_, ?_⟩
      · intro c h1 h2
        rw [List.getElem?_set]
        by_cases ec : c = M
        · subst ec
          rw [if_pos rfl, if_pos (by omega), ← hq3 c (by omega), List.getElem?_eq_getElem (by omega)]
        · rw [if_neg (by omega)]; exact hq2 c (by omega) h2
      · intro c h1
        rw [List.getElem?_set, if_neg (by omega)]
        exact hq3 c (by omega))
  exact ⟨q, h1, h2, fun c hc => h3 c (by omega) hc⟩

/-! ## All passes -/

theorem trRows_ok {n : Int} {rs : List (List (Int × α))} (N : Nat)
    (h : ∀ r ∈ rs, ∀ e ∈ r, 0 ≤ e.1 ∧ e.1 < n) :
    ∀ r ∈ trRows (triplesL rs) N, ∀ e ∈ r, 0 ≤ e.1 ∧ e.1 < (rs.length : Int) := by
  intro r hr e he
  simp only [trRows, List.mem_map, List.mem_range] at hr
  obtain ⟨c, hc, rfl⟩ := hr
  simp only [bucket, List.mem_map, List.mem_filter] at he
  obtain ⟨t, ⟨ht, -⟩, rfl⟩ := he
  exact (triplesL_ok h t ht).1

theorem bucket_length_eq (rs : List (List (Int × α))) (c : Int) :
    (bucket (triplesL rs) c).length
      = ((rs.flatten.map Prod.fst).filter (fun x => x = c)).length := by
  rw [← triplesL_map_snd rs]
  simp only [bucket, List.length_map, List.map_map, List.filter_map, Function.comp_def]

theorem transpose_ofRows [Zero α] (N : Nat) (rs : List (List (Int × α)))
    (h : ∀ r ∈ rs, ∀ e ∈ r, 0 ≤ e.1 ∧ e.1 < (N : Int)) :
    (Csr.ofRows (N : Int) rs).transpose
      = .ok (Csr.ofRows (rs.length : Int) (trRows (triplesL rs) N)) := by
  have hT := triplesL_ok h
  have hT2 : ∀ t ∈ triplesL rs, 0 ≤ t.2.1 ∧ t.2.1 < (N : Int) := fun t ht => (hT t ht).2
  unfold Csr.transpose
  have ecols : (Csr.ofRows (N : Int) rs).cols = (N : Int) := rfl
  have erows : (Csr.ofRows (N : Int) rs).rows = (rs.length : Int) := rfl
  have eix : (Csr.ofRows (N : Int) rs).indices = rs.flatten.map Prod.fst := rfl
  have edt : (Csr.ofRows (N : Int) rs).data = rs.flatten.map Prod.snd := rfl
  simp only [ecols, eix]
  rw [mkVec_int (by omega), ok_bind]
  have e1 : ((N : Int) + 1).toNat = N + 1 := by omega
  rw [e1]
  obtain ⟨p1, hp1, hl1, h10, h1c⟩ := count_pass (rs.flatten.map Prod.fst) N (by
    intro c hc
    exact (Csr.wf_ofRows (n := (N : Int)) (by omega) h).cols_ok c hc)
  rw [hp1, ok_bind]
  have hpp := prefix_pass (trRows (triplesL rs) N) p1 (by simpa using hl1) h10 (by
    intro c hc
    simp only [length_trRows] at hc
    rw [getElem_trRows, h1c c hc, bucket_length_eq])
  simp only [length_trRows] at hpp
  rw [hpp, ok_bind]
  rw [rowLoop_ofRows (N : Int) rs _ _ (fun i e (out : List Int × List Int × List α) => do
    let k ← rd out.1 e.1
    let ix ← wr out.2.1 k i
    let dt ← wr out.2.2 k e.2
    let p ← wr out.1 e.1 (k + 1)
    .ok (p, ix, dt))]
  · have hlen : (List.replicate (Csr.ofRows (N : Int) rs).data.length (0 : Int)).length
        = (triplesL rs).length := by
      rw [List.length_replicate, edt, List.length_map, triplesL_length]
    have hlen' : (List.replicate (Csr.ofRows (N : Int) rs).data.length (0 : α)).length
        = (triplesL rs).length := by
      rw [List.length_replicate, edt, List.length_map, triplesL_length]
    obtain ⟨p3, h3, hl3, h3c⟩ := scatter_pass (triplesL rs) N hT2 _ _ hlen hlen'
    rw [h3, ok_bind]
    obtain ⟨q, h4, hl4, h4c⟩ := shift_pass p3 N hl3
    rw [h4, ok_bind]
    rw [wr_int (by omega) (by omega), ok_bind]
    have hfin : q.set (0 : Int).toNat 0 = ptrs (trRows (triplesL rs) N) := by
      apply List.ext_getElem?
      intro k
      by_cases hk : k ≤ N
      · rw [List.getElem?_eq_getElem (l := ptrs _) (by simp; omega), getElem_ptrs,
          take_trRows _ _ _ hk, List.getElem?_set]
        by_cases k0 : k = 0
        · subst k0; simp [trRows, hl4]
        · obtain ⟨c, rfl⟩ : ∃ c, k = c + 1 := ⟨k - 1, by omega⟩
          rw [if_neg (by simp), h4c c (by omega), h3c c (by omega)]
      · rw [List.getElem?_eq_none (by simp; omega), List.getElem?_eq_none (by simp; omega)]
    rw [hfin, erows]
    have := Csr.ofArrays_ofRows (n := (rs.length : Int)) (rs := trRows (triplesL rs) N) (by omega)
      (trRows_ok N h)
    rw [length_trRows] at this
    exact this
  · intro k m hk hm s
    rw [rd_data_ofRows _ rs k m hk hm]
    have := rd_indices_ofRows (N : Int) rs k m hk hm
    rw [eix] at this
    rw [this]
    rfl

/-- The rows of the transpose are the columns of the matrix. -/
theorem column_ofRows (n : Int) (rs : List (List (Int × α))) (j : Int) :
    (Csr.ofRows n rs).column j = bucket (triplesL rs) j := by
  unfold Csr.column
  have e : (Csr.ofRows n rs).rows.toNat = rs.length := by simp [Csr.ofRows]
  rw [e]
  have hrow : ∀ i : Int, 0 ≤ i → (Csr.ofRows n rs).row i = rs.getD i.toNat [] :=
    fun i h => row_ofRows_getD n rs h
  have e2 : (iota rs.length).flatMap (fun i =>
      (((Csr.ofRows n rs).row i).filter (fun e => e.1 = j)).map (fun e => (i, e.2)))
      = (iota rs.length).flatMap (fun i =>
      ((rs.getD i.toNat []).filter (fun e => e.1 = j)).map (fun e => (i, e.2))) := by
    simp only [List.flatMap_eq_foldl]
    rw [← List.flatMap_eq_foldl, ← List.flatMap_eq_foldl]
    simp only [List.flatMap]
    congr 1
    apply List.map_congr_left
    intro i hi
    rw [hrow i (mem_iota.mp hi).1]
  rw [e2]
  clear e2 hrow e
  induction rs using List.reverseRecOn with
  | nil => rfl
  | append_singleton rs r ih =>
    rw [triplesL_concat, bucket_append, ← ih]
    have e3 : iota (rs ++ [r]).length = iota rs.length ++ [(rs.length : Int)] := by
      simp [iota, List.range_succ]
    rw [e3, List.flatMap_append]
    congr 1
    · simp only [List.flatMap]
      congr 1
      apply List.map_congr_left
      intro i hi
      have := mem_iota.mp hi
      rw [List.getD_eq_getElem?_getD, List.getD_eq_getElem?_getD, List.getElem?_append_left (by omega)]
    · simp [bucket, List.filter_map, Function.comp_def]

theorem rowCoef_bucket [AddMonoid R] (rs : List (List (Int × R))) {i j : Int}
    (h0 : 0 ≤ i) (h1 : i < rs.length) :
    rowCoef (bucket (triplesL rs) j) i = rowCoef (rs.getD i.toNat []) j := by
  induction rs using List.reverseRecOn with
  | nil => simp at h1; omega
  | append_singleton rs r ih =>
    rw [triplesL_concat, bucket_append, rowCoef_append]
    have hb : bucket (r.map (fun e => ((rs.length : Int), e.1, e.2))) j
        = (r.filter (fun e => e.1 = j)).map (fun e => ((rs.length : Int), e.2)) := by
      simp [bucket, List.filter_map, Function.comp_def]
    rw [hb]
    simp only [List.length_append, List.length_singleton] at h1
    by_cases e : i = (rs.length : Int)
    · have z : rowCoef (bucket (triplesL rs) j) i = 0 := by
        apply rowCoef_eq_zero
        intro x hx
        simp only [bucket, List.mem_map, List.mem_filter] at hx
        obtain ⟨t, ⟨ht, -⟩, rfl⟩ := hx
        obtain ⟨k, hk, h1, -⟩ := mem_triplesL.mp ht
        simp only; omega
      rw [z, zero_add]
      have : (rs ++ [r]).getD i.toNat [] = r := by
        subst e; simp
      rw [this]
      unfold rowCoef
      congr 1
      rw [List.filter_map]
      have : (List.filter ((fun e : Int × R => decide (e.1 = i)) ∘ fun e : Int × R => ((rs.length : Int), e.2))
          (r.filter (fun e => e.1 = j))) = r.filter (fun e => e.1 = j) := by
        rw [List.filter_eq_self]; intro a _; simp [e]
      rw [this]; simp [List.map_map, Function.comp_def]
    · rw [ih (by omega)]
      have z : rowCoef ((r.filter (fun e => e.1 = j)).map (fun e => ((rs.length : Int), e.2))) i = 0 := by
        apply rowCoef_eq_zero
        intro x hx
        simp only [List.mem_map] at hx
        obtain ⟨t, -, rfl⟩ := hx
        simp only; omega
      rw [z, add_zero, List.getD_eq_getElem?_getD, List.getD_eq_getElem?_getD,
        List.getElem?_append_left (by omega)]

/-! ## Transposing twice -/

/-- Stable bucket sort of a row by column. -/
def bsort (N : Nat) (l : List (Int × α)) : List (Int × α) :=
  (List.range N).flatMap (fun c : Nat => l.filter (fun e => e.1 = (c : Int)))

theorem bsort_succ (N : Nat) (l : List (Int × α)) :
    bsort (N + 1) l = bsort N l ++ l.filter (fun e => e.1 = (N : Int)) := by
  simp [bsort, List.range_succ]

theorem bsort_filter_lt (N : Nat) (l : List (Int × α)) :
    bsort N (l.filter (fun e => e.1 < (N : Int))) = bsort N l := by
  simp only [bsort, List.flatMap]
  congr 1
  apply List.map_congr_left
  intro c hc
  rw [List.filter_filter]
  apply List.filter_congr
  intro e _
  have := List.mem_range.mp hc
  by_cases h : e.1 = (c : Int)
  · have : e.1 < (N : Int) := by omega
    simp only [h] at this ⊢
    simp [this]
  · simp [h]

theorem bsort_perm (N : Nat) (l : List (Int × α)) (h : ∀ e ∈ l, 0 ≤ e.1 ∧ e.1 < (N : Int)) :
    (bsort N l).Perm l := by
  induction N generalizing l with
  | zero =>
    have : l = [] := by
      rcases l with _ | ⟨e, l⟩
      · rfl
      · have := h e (by simp); omega
    subst this; simp [bsort]
  | succ N ih =>
    rw [bsort_succ, ← bsort_filter_lt]
    have h1 := ih (l.filter (fun e => e.1 < (N : Int))) (by
      intro e he
      simp only [List.mem_filter, decide_eq_true_eq] at he
      exact ⟨(h e he.1).1, he.2⟩)
    refine (h1.append_right _).trans ?_
    have e1 : l.filter (fun e => e.1 = (N : Int)) = l.filter (fun e => !decide (e.1 < (N : Int))) := by
      apply List.filter_congr
      intro e he
      have := h e he
      by_cases h2 : e.1 = (N : Int)
      · simp [h2]
      · have h3 : e.1 < (N : Int) := by push_cast at this; omega
        simp [h2, h3]
    rw [e1]
    exact List.filter_append_perm _ l

theorem bsort_of_sorted (N : Nat) (l : List (Int × α)) (h : ∀ e ∈ l, 0 ≤ e.1 ∧ e.1 < (N : Int))
    (hs : l.Pairwise (fun a b => a.1 ≤ b.1)) : bsort N l = l := by
  induction N generalizing l with
  | zero =>
    have : l = [] := by
      rcases l with _ | ⟨e, l⟩
      · rfl
      · have := h e (by simp); omega
    subst this; simp [bsort]
  | succ N ih =>
    rw [bsort_succ, ← bsort_filter_lt, ih _ (by
      intro e he
      simp only [List.mem_filter, decide_eq_true_eq] at he
      exact ⟨(h e he.1).1, he.2⟩) (hs.filter _)]
    clear ih
    induction l with
    | nil => rfl
    | cons e l ih =>
      have he := h e (by simp)
      rw [List.pairwise_cons] at hs
      have ih' := ih (fun x hx => h x (by simp [hx])) hs.2
      by_cases h2 : e.1 = (N : Int)
      · have h3 : ∀ x ∈ l, x.1 = (N : Int) := by
          intro x hx
          have h4 := h x (by simp [hx])
          have h5 := hs.1 x hx
          push_cast at h4; omega
        have e1 : (e :: l).filter (fun e => e.1 < (N : Int)) = [] := by
          rw [List.filter_eq_nil_iff]
          intro x hx
          rcases List.mem_cons.mp hx with rfl | hx
          · simp [h2]
          · simp [h3 x hx]
        have e2 : (e :: l).filter (fun e => e.1 = (N : Int)) = e :: l := by
          rw [List.filter_eq_self]
          intro x hx
          rcases List.mem_cons.mp hx with rfl | hx
          · simp [h2]
          · simp [h3 x hx]
        rw [e1, e2]; rfl
      · have h3 : e.1 < (N : Int) := by push_cast at he; omega
        rw [List.filter_cons_of_pos (by simpa using h3), List.filter_cons_of_neg (by simpa using h2),
          List.cons_append, ih']

theorem bsort_sorted (N : Nat) (l : List (Int × α)) :
    (bsort N l).Pairwise (fun a b => a.1 ≤ b.1) := by
  induction N with
  | zero => simp [bsort]
  | succ N ih =>
    rw [bsort_succ, List.pairwise_append]
    refine ⟨ih, ?_, ?_⟩
    · rw [List.pairwise_iff_forall_sublist]
      intro a b hab
      have ha : a ∈ l.filter (fun e => e.1 = (N : Int)) := hab.subset (by simp)
      have hb : b ∈ l.filter (fun e => e.1 = (N : Int)) := hab.subset (by simp)
      simp only [List.mem_filter, decide_eq_true_eq] at ha hb
      omega
    · intro a ha b hb
      simp only [bsort, List.mem_flatMap, List.mem_range, List.mem_filter, decide_eq_true_eq] at ha hb
      obtain ⟨c, hc, -, h1⟩ := ha
      omega

theorem filter_triplesL (rs : List (List (Int × α))) (k : Nat) (hk : k < rs.length) :
    ((triplesL rs).filter (fun t => t.1 = (k : Int))).map (fun t => t.2) = rs[k] := by
  induction rs using List.reverseRecOn with
  | nil => simp at hk
  | append_singleton rs r ih =>
    rw [triplesL_concat, List.filter_append, List.map_append]
    by_cases e : k < rs.length
    · rw [ih e, List.getElem_append_left e]
      have : (List.map (fun e => ((rs.length : Int), e.1, e.2)) r).filter
          (fun t => t.1 = (k : Int)) = [] := by
        rw [List.filter_eq_nil_iff]
        intro t ht
        simp only [List.mem_map] at ht
        obtain ⟨x, -, rfl⟩ := ht
        simp; omega
      rw [this]; simp
    · have hk' : k = rs.length := by simp at hk; omega
      subst hk'
      have h1 : (triplesL rs).filter (fun t => t.1 = ((rs.length : Nat) : Int)) = [] := by
        rw [List.filter_eq_nil_iff]
        intro t ht
        obtain ⟨k, hk, h1, -⟩ := mem_triplesL.mp ht
        simp; omega
      have h2 : (List.map (fun e => ((rs.length : Int), e.1, e.2)) r).filter
          (fun t => t.1 = ((rs.length : Nat) : Int))
          = List.map (fun e => ((rs.length : Int), e.1, e.2)) r := by
        rw [List.filter_eq_self]
        intro t ht
        simp only [List.mem_map] at ht
        obtain ⟨x, -, rfl⟩ := ht
        simp
      rw [h1, h2]; simp

theorem bucket_trRows (T : List (Int × Int × α)) (N : Nat) (i : Int) :
    bucket (triplesL (trRows T N)) i
      = bsort N ((T.filter (fun t => t.1 = i)).map (fun t => t.2)) := by
  induction N with
  | zero => rfl
  | succ N ih =>
    rw [trRows_succ, triplesL_concat, bucket_append, ih, bsort_succ, length_trRows]
    congr 1
    simp only [bucket, List.map_map, List.filter_map, Function.comp_def, List.filter_filter]
    have : T.filter (fun t => decide (t.1 = i) && decide (t.2.1 = (N : Int)))
        = T.filter (fun t => decide (t.2.1 = (N : Int)) && decide (t.1 = i)) := by
      apply List.filter_congr; intro a _; exact Bool.and_comm _ _
    rw [this]
    apply List.map_congr_left
    intro t ht
    simp only [List.mem_filter, Bool.and_eq_true, decide_eq_true_eq] at ht
    rw [← ht.2.1]

theorem trRows_trRows (N : Nat) (rs : List (List (Int × α))) :
    trRows (triplesL (trRows (triplesL rs) N)) rs.length = rs.map (bsort N) := by
  apply List.ext_getElem
  · simp
  · intro k h1 h2
    rw [getElem_trRows, bucket_trRows, List.getElem_map, filter_triplesL]

end Linalg
