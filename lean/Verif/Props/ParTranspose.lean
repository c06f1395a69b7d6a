import Verif.Proof.ParTrGlobal

/-! # Transposes and triple products of distributed matrices -/

namespace Linalg
open Cpp

variable {α β R : Type}

namespace Par

/-- The part of a coefficient that comes from the other block. -/
def offdBlockPart [AddCommMonoid R] (M : ParMat R) (i c : Int) : R :=
  ∑ k ∈ Finset.Ico (0 : Int) M.colMap.length, if vecAt M.colMap k = c then M.offd.coef i k else 0

theorem sum_single [AddCommMonoid R] (l : List β) (f : β → R) (i : Nat) (hi : i < l.length)
    (h : ∀ j (hj : j < l.length), j ≠ i → f l[j] = 0) : (l.map f).sum = f l[i] := by
  have hsplit : l = l.take i ++ l[i] :: l.drop (i + 1) := by rw [← List.drop_eq_getElem_cons hi, List.take_append_drop]
  have hL : ((l.take i).map f).sum = 0 := by
    apply List.sum_eq_zero
    intro x hx
    obtain ⟨M, hM, rfl⟩ := List.mem_map.mp hx
    obtain ⟨q, hq, rfl⟩ := List.mem_take_iff_getElem.mp hM
    exact h q (by omega) (by omega)
  have hR : ((l.drop (i + 1)).map f).sum = 0 := by
    apply List.sum_eq_zero
    intro x hx
    obtain ⟨M, hM, rfl⟩ := List.mem_map.mp hx
    obtain ⟨q, hq, rfl⟩ := List.getElem_of_mem hM
    rw [List.getElem_drop]
    exact h (i + 1 + q) _ (by omega)
  conv_lhs => rw [hsplit]
  rw [List.map_append, List.sum_append, List.map_cons, List.sum_cons, hL, hR, zero_add, add_zero]

theorem sum_Ico_zip [AddCommMonoid R] {γ : Type} (m : List Int) (S : List γ) (hl : S.length = m.length) (F : Int → R) (G : γ → R)
    (c : Int) (h : ∀ (k : Nat) (hk : k < S.length), G S[k] = F k) :
    ∑ k ∈ Finset.Ico (0 : Int) m.length, (if vecAt m k = c then F k else 0)
      = ((m.zip S).map (fun y => if y.1 = c then G y.2 else 0)).sum := by
  induction m using List.reverseRecOn generalizing S with
  | nil => simp
  | append_singleton m x ih =>
    rcases List.eq_nil_or_concat' S with rfl | ⟨S, s, rfl⟩
    · simp at hl
    · have hl' : S.length = m.length := by simpa using hl
      have e : ((m ++ [x]).length : Int) = (m.length : Int) + 1 := by simp
      rw [e, sum_Ico_succ _ (by omega), List.zip_append hl'.symm, List.map_append, List.sum_append]
      congr 1
      · rw [← ih S hl' (by
          intro k hk
          have := h k (by simp; omega)
          rw [List.getElem_append_left hk] at this
          exact this)]
        apply Finset.sum_congr rfl
        intro k hk
        rw [Finset.mem_Ico] at hk
        have : vecAt (m ++ [x]) k = vecAt m k := by
          rw [vecAt_int _ hk.1 (by simp; omega), vecAt_int _ hk.1 hk.2, List.getElem_append_left]
        rw [this]
      · have h1 : vecAt (m ++ [x]) (m.length : Int) = x := by
          rw [vecAt_nat _ _ (by simp), List.getElem_append_right (le_refl _)]
          simp
        have h2 := h S.length (by simp)
        rw [List.getElem_append_right (le_refl _)] at h2
        simp only [Nat.sub_self, List.getElem_cons_zero] at h2
        rw [h1, ← hl', ← h2]
        simp

theorem rowCoef_shift [AddMonoid R] (r : List (Int × R)) (d g : Int) :
    rowCoef (r.map (fun e => (e.1 + d, e.2))) g = rowCoef r (g - d) := by
  induction r with
  | nil => rfl
  | cons e r ih =>
    rw [List.map_cons, rowCoef_cons, rowCoef_cons, ih]
    congr 1
    simp only
    by_cases h : e.1 = g - d
    · rw [if_pos h, if_pos (by omega)]
    · rw [if_neg h, if_neg (by omega)]

/-- The rows that a process sends are the rows of the transpose of its other block, at global columns. -/
theorem rowCoef_sentRows [AddMonoid R] {O : Csr R} (hO : O.WF) (first : Int) (N : Nat) (hN : O.cols = N) (k : Nat)
    (hk : k < (sentRows first O.rowsL N).length) (g : Int) : rowCoef (sentRows first O.rowsL N)[k] g = O.coef (g - first) k := by
  have hk' : k < N := by rwa [length_sentRows] at hk
  have e1 : (sentRows first O.rowsL N)[k] = ((trRows (triplesL O.rowsL) N)[k]'(by simpa using hk')).map (fun e => (e.1 + first, e.2)) := by
    simp only [sentRows, mapCols, List.getElem_map]
  rw [e1, rowCoef_shift]
  obtain ⟨B, b1, b2⟩ := C03_transpose_coef O hO
  have ok := hO.rows_ok
  have e2 := hO.eq_ofRows
  rw [hN] at ok e2
  rw [e2, transpose_ofRows N O.rowsL ok] at b1
  obtain rfl := Except.ok.inj b1
  rw [← b2, coef_ofRows _ _ k (by simpa using hk')]

theorem sentRows_range {O : Csr α} (hO : O.WF) (first : Int) (N : Nat) :
    ∀ r ∈ sentRows first O.rowsL N, ∀ x ∈ r, first ≤ x.1 ∧ x.1 < first + O.rows := by
  intro r hr x hx
  obtain ⟨r', hr', rfl⟩ := List.mem_map.mp hr
  obtain ⟨e, he, rfl⟩ := List.mem_map.mp hx
  have ok := hO.rows_ok
  have := trRows_ok N ok r' hr' e he
  rw [Csr.length_rowsL] at this
  have := hO.rows_nonneg
  simp only
  omega

/-- Different processes own different columns. -/
theorem owner_unique {l : List Int} (hm : l.Pairwise (· ≤ ·)) {n : Nat} (hl : l.length = n + 1) {p q : Nat} (hp : p < n) (hq : q < n)
    {g : Int} (h1 : vecAt l p ≤ g ∧ g < vecAt l (p + 1)) (h2 : vecAt l q ≤ g ∧ g < vecAt l (q + 1)) : p = q := by
  rcases Nat.lt_trichotomy p q with h | h | h
  · have := IsDist.mono hm (p := p + 1) (q := q) (by omega) (by omega)
    push_cast at this
    omega
  · exact h
  · have := IsDist.mono hm (p := q + 1) (q := p) (by omega) (by omega)
    push_cast at this
    omega

theorem owner_exists {l : List Int} {n : Nat} {g : Int} (h0 : vecAt l 0 ≤ g) (h1 : g < vecAt l n) :
    ∃ q < n, vecAt l (q : Nat) ≤ g ∧ g < vecAt l ((q : Int) + 1) := by
  induction n with
  | zero => simp at h1; omega
  | succ n ih =>
    by_cases h : g < vecAt l n
    · obtain ⟨q, hq, h2⟩ := ih h
      exact ⟨q, by omega, h2⟩
    · exact ⟨n, by omega, by omega, by push_cast at h1; exact h1⟩

theorem vecAt_succ_owner {l : List Int} {x : Int} (h : 0 ≤ x) : vecAt l (x + 1) = vecAt l ((x.toNat : Int) + 1) := by
  rw [Int.toNat_of_nonneg h]

/-- The rows that process `q` gets from process `p` make up the other block of `p` in the columns of `q`. -/
theorem recvCoef_zip [AddCommMonoid R] {A : ParMat R} {r0 r1 rn c0 c1 cn : Int} (w : A.WF r0 r1 rn c0 c1 cn) {co : List Int} {n : Nat}
    (hm : co.Pairwise (· ≤ ·)) (hl : co.length = n + 1) (rc : List (Int × List Int)) (hnd : (rc.map Prod.fst).Nodup)
    (hcm : A.colMap = (rc.map (fun x => x.2.map (vecAt co x.1 + ·))).flatten)
    (hown : ∀ x ∈ rc, (0 ≤ x.1 ∧ x.1 < (n : Int)) ∧ ∀ c ∈ x.2, 0 ≤ c ∧ c < vecAt co (x.1 + 1) - vecAt co x.1)
    {q : Nat} (hq : q < n) {l : List Int} (hx : ((q : Int), l) ∈ rc) {i : Int} (h0 : 0 ≤ i) (h1 : i < vecAt co (q + 1) - vecAt co q)
    (g : Int) :
    recvCoef (l.zip (seg rc (sentRows r0 A.offd.rowsL A.colMap.length) (q : Int))) i g = offdBlockPart A (g - r0) (vecAt co q + i) := by
  generalize hS : sentRows r0 A.offd.rowsL A.colMap.length = S
  have hSl : S.length = A.colMap.length := by rw [← hS, length_sentRows]
  have hsum : (rc.map (fun x => x.2.length)).sum = S.length := by
    rw [hSl, hcm, List.length_flatten, List.map_map]
    congr 1
    apply List.map_congr_left
    intro x _
    simp
  have hcl := chunks_lengths (rc.map (fun x => x.2.length)) S (le_of_eq hsum)
  unfold offdBlockPart
  rw [sum_Ico_zip A.colMap S hSl _ (fun r => rowCoef r g) _ (by
    intro k hk
    subst hS
    exact rowCoef_sentRows w.offd_wf r0 A.colMap.length w.offd_cols k hk g)]
  conv_rhs => rw [hcm, ← chunks_flatten (rc.map (fun x => x.2.length)) S hsum]
  rw [zip_flatten _ _ (by
    rw [hcl, List.map_map]
    apply List.map_congr_left
    intro x _
    simp), List.map_flatten, List.sum_flatten, List.map_map, List.map_map]
  obtain ⟨hi, e1⟩ := idx_of_mem hnd hx
  obtain ⟨hi', e2⟩ := seg_eq hnd S hx
  rw [sum_single _ _ ((rc.map Prod.fst).idxOf (q : Int)) (by
    rw [List.length_zip, List.length_map, length_chunks, List.length_map, Nat.min_self]; exact hi)]
  · simp only [Function.comp, List.getElem_zip, List.getElem_map, e1]
    rw [← e2]
    unfold recvCoef
    congr 1
    rw [List.zip_map_left, List.map_map]
    apply List.map_congr_left
    intro y _
    simp only [Function.comp, Prod.map_fst, Prod.map_snd, id]
    by_cases h : y.1 = i
    · rw [if_pos h, if_pos (by omega)]
    · rw [if_neg h, if_neg (by omega)]
  · intro j hj hne
    rw [List.length_zip, List.length_map, length_chunks, List.length_map, Nat.min_self] at hj
    simp only [Function.comp, List.getElem_zip, List.getElem_map]
    apply List.sum_eq_zero
    intro y hy
    obtain ⟨z, hz, rfl⟩ := List.mem_map.mp hy
    rw [if_neg]
    have hz1 := (List.of_mem_zip hz).1
    obtain ⟨c, hc, e⟩ := List.mem_map.mp hz1
    obtain ⟨⟨a1, a2⟩, a3⟩ := hown _ (List.getElem_mem hj)
    have a4 := a3 c hc
    intro hcon
    have hcon' : vecAt co (rc[j]).1 + c = vecAt co q + i := e.trans hcon
    have ht : (((rc[j]).1.toNat : Nat) : Int) = (rc[j]).1 := Int.toNat_of_nonneg a1
    have := owner_unique hm hl (p := (rc[j]).1.toNat) (q := q) (by omega) hq (g := vecAt co q + i) (by rw [ht]; omega) (by omega)
    apply hne
    have hnj : (rc.map Prod.fst)[j]'(by simpa using hj) = (q : Int) := by rw [List.getElem_map]; omega
    have hni : (rc.map Prod.fst)[(rc.map Prod.fst).idxOf (q : Int)]'(by simpa using hi) = (q : Int) := List.getElem_idxOf _
    exact (List.Nodup.getElem_inj_iff hnd).mp (hnj.trans hni.symm)

theorem recvCoef_flatten [AddMonoid R] (G : List (List (Int × List (Int × R)))) (i g : Int) :
    recvCoef G.flatten i g = (G.map (fun l => recvCoef l i g)).sum := by
  unfold recvCoef
  rw [List.map_flatten, List.sum_flatten, List.map_map]
  rfl

/-- A sum over some processes is a sum over all if the others contribute nothing. -/
theorem sum_procs [AddCommMonoid R] {n : Nat} (l : List Int) (hnd : l.Nodup) (hr : ∀ x ∈ l, 0 ≤ x ∧ x < (n : Int)) (F : Nat → R)
    (hz : ∀ p < n, (p : Int) ∉ l → F p = 0) : (l.map (fun x => F x.toNat)).sum = ((List.range n).map F).sum := by
  have hnd' : (l.map Int.toNat).Nodup := by
    refine List.Nodup.map_on ?_ hnd
    intro x hx y hy h
    have := hr x hx; have := hr y hy
    omega
  have e : (l.map (fun x => F x.toNat)) = (l.map Int.toNat).map F := by rw [List.map_map]; rfl
  rw [e, ← List.sum_toFinset F hnd', ← List.sum_toFinset F List.nodup_range]
  apply Finset.sum_subset
  · intro p hp
    rw [List.mem_toFinset] at hp ⊢
    obtain ⟨x, hx, rfl⟩ := List.mem_map.mp hp
    have := hr x hx
    exact List.mem_range.mpr (by omega)
  · intro p hp hn
    rw [List.mem_toFinset, List.mem_range] at hp
    rw [List.mem_toFinset] at hn
    refine hz p hp (fun h => hn (List.mem_map.mpr ⟨p, h, by simp⟩))

end Par

/-! ## C77 -/

/-- **C77.**  `Transpose()` on all processes, for a distributed matrix with a fitting communication package: the result is accepted,
distributed with the roles of rows and columns exchanged, and is the transposed matrix. -/
theorem C77_parTranspose [AddCommMonoid R] (srt : Csr.Sorter) (hs : IsSort srt) (search : List Int → Int → Int)
    (hsearch : IsSearch search) (reorder : Csr R → Csr R) (hre : Reorders reorder) (pkgs : List Par.CommPkg) (As : List (ParMat R))
    (ro co : List Int) (hA : Par.IsDist As ro co) (hpk : As.length > 1 → Par.IsCommPkg pkgs As co) :
    ∃ Ts, Par.parTranspose srt search reorder pkgs As = .ok Ts ∧ Ts.length = As.length ∧ Par.IsDist Ts co ro ∧
      ∀ g c, Par.globalCoef Ts c g = Par.globalCoef As g c := by
  have hcl := hA.cols_len
  have hrl := hA.rows_len
  -- the shares
  obtain ⟨Ts, t1, t2, t3, t4⟩ : ∃ Ts, Par.parTranspose srt search reorder pkgs As = .ok Ts ∧ ∃ hl : Ts.length = As.length,
      (∀ q (hq : q < As.length), (Ts[q]'(by omega)).WF (vecAt co q) (vecAt co (q + 1)) (vecAt co As.length)
        (vecAt ro q) (vecAt ro (q + 1)) (vecAt ro As.length)) ∧
      ∀ q (hq : q < As.length) i g, 0 ≤ i → i < vecAt co (q + 1) - vecAt co q → (Ts[q]'(by omega)).coef i g
        = (if vecAt ro q ≤ g ∧ g < vecAt ro (q + 1) then As[q].diag.coef (g - vecAt ro q) i else 0)
          + ((List.range As.length).map (fun p => match As[p]? with
            | some A => Par.offdBlockPart A (g - vecAt ro p) (vecAt co q + i)
            | none => 0)).sum := by
    by_cases hn : As.length > 1
    · obtain ⟨recv, send, K⟩ := hpk hn
      have hne : As ≠ [] := by intro h; rw [h] at hn; simp at hn
      generalize hAdef : (fun p : Nat => (As[p]?).getD (As.head hne)) = A
      generalize hPdef : (fun p : Nat => (pkgs[p]?).getD ⟨[], [], [], [], []⟩) = P
      have hAe : ∀ p (hp : p < As.length), A p = As[p] := by
        intro p hp
        rw [← hAdef]
        simp [List.getElem?_eq_getElem hp]
      have hpl := K.len
      have hPe : ∀ p (hp : p < As.length), P p = pkgs[p]'(by omega) := by
        intro p hp
        rw [← hPdef]
        simp [List.getElem?_eq_getElem (show p < pkgs.length by omega)]
      have hw : ∀ p < As.length, (A p).WF (vecAt ro p) (vecAt ro (p + 1)) (vecAt ro As.length) (vecAt co p) (vecAt co (p + 1))
          (vecAt co As.length) := by
        intro p hp
        rw [hAe p hp]
        exact hA.share p hp
      generalize hSdef : (fun p => Par.sentRows (vecAt ro (p : Nat)) (A p).offd.rowsL (A p).colMap.length) = S
      have hS : ∀ p, S p = Par.sentRows (vecAt ro (p : Nat)) (A p).offd.rowsL (A p).colMap.length := fun p => by rw [← hSdef]
      have hcm : ∀ p < As.length, (A p).colMap = ((recv p).map (fun x => x.2.map (vecAt co x.1 + ·))).flatten := by
        intro p hp
        rw [hAe p hp]
        exact K.col_map p hp
      have H : Par.Plan As.length recv send S := by
        refine ⟨?_, K.recv_nodup, K.send_range, ?_⟩
        · intro p hp
          rw [hS, Par.length_sentRows, hcm p hp, List.length_flatten, List.map_map]
          congr 1
          apply List.map_congr_left
          intro x _
          simp
        · intro p hp q hq l hl
          exact (K.matching p q l hp hq).mpr hl
      have hcols : ∀ q < As.length, ∀ x ∈ send q, ∀ c ∈ x.2, 0 ≤ c ∧ c < vecAt co (q + 1) - vecAt co q := by
        intro q hq x hx c hc
        have hr := K.send_range q hq x hx
        have ht : ((x.1.toNat : Nat) : Int) = x.1 := Int.toNat_of_nonneg hr.1
        have hm := H.recv_of_send x.1.toNat (by omega) q hq x.2 (by rw [ht]; exact hx)
        exact (K.recv_owned x.1.toNat (by omega) _ hm).2 c hc
      have hout : ∀ q < As.length, ∀ e ∈ (Par.got recv send S q).flatten, ∀ x ∈ e.2,
          (0 ≤ x.1 ∧ x.1 < vecAt ro As.length) ∧ (x.1 < vecAt ro q ∨ vecAt ro (q + 1) ≤ x.1) := by
        intro q hq e he x hx
        obtain ⟨z, hz, hez⟩ := List.mem_flatten.mp he
        obtain ⟨y, hy, rfl⟩ := List.mem_map.mp hz
        obtain ⟨h1, h2⟩ := List.of_mem_zip hez
        have hr := K.send_range q hq y hy
        have ht : ((y.1.toNat : Nat) : Int) = y.1 := Int.toNat_of_nonneg hr.1
        have hp : y.1.toNat < As.length := by omega
        have hm := H.recv_of_send y.1.toNat hp q hq y.2 (by rw [ht]; exact hy)
        have h3 := Par.mem_seg _ (H.sum _ hp) h2
        rw [hS] at h3
        have w := hw _ hp
        have h4 := Par.sentRows_range w.offd_wf _ _ e.2 h3 x hx
        rw [w.offd_rows] at h4
        -- the sender is another process
        have hpq : y.1.toNat ≠ q := by
          intro hpq
          have h5 := (K.recv_owned _ hp _ hm).2 e.1 h1
          have h6 : vecAt co q + e.1 ∈ (A y.1.toNat).colMap := by
            rw [hcm _ hp]
            exact List.mem_flatten.mpr ⟨_, List.mem_map.mpr ⟨_, hm, rfl⟩, List.mem_map.mpr ⟨e.1, h1, rfl⟩⟩
          have h7 := w.map_other _ h6
          rw [hpq] at h7
          simp only at h5
          omega
        have m0 := Par.IsDist.mono hA.rows_mono (p := 0) (q := y.1.toNat) (by omega) (by omega)
        have m1 := Par.IsDist.mono hA.rows_mono (p := y.1.toNat + 1) (q := As.length) (by omega) (by omega)
        have m2 := hA.rows_first
        push_cast at m0 m1
        refine ⟨by omega, ?_⟩
        by_contra hcon
        exact hpq (Par.owner_unique hA.rows_mono hrl hp hq (g := x.1) (by omega) (by omega))
      obtain ⟨Ts, t1, t2, t3⟩ := Par.run_ok srt hs search hsearch reorder hre As pkgs As.length rfl hn A P
        (by intro p hp; rw [hAe p hp]; exact rd_nat hp) (by intro p hp; rw [hPe p hp]; exact rd_nat (by omega))
        (fun p => vecAt ro p) (fun p => vecAt ro (p + 1)) (fun p => vecAt co p) (fun p => vecAt co (p + 1)) (vecAt ro As.length)
        (vecAt co As.length) hw recv send S (fun p _ => hS p) H
        (by intro p hp; rw [hPe p hp]; exact K.recv_procs p (by omega)) (by intro p hp; rw [hPe p hp]; exact K.send_procs p (by omega))
        (by intro p hp; rw [hPe p hp, ← Par.startsOf_eq]; exact K.recv_starts p (by omega))
        (by intro p hp; rw [hPe p hp, ← Par.startsOf_eq]; exact K.send_starts p (by omega))
        (by intro p hp; rw [hPe p hp]; exact K.send_elmts p (by omega)) hcols hout
      refine ⟨Ts, t1, t2, fun q hq => (t3 q hq).1, ?_⟩
      intro q hq i g h0 h1
      rw [(t3 q hq).2 i g h0 h1, hAe q hq]
      congr 1
      rw [Par.recvCoef_flatten]
      unfold Par.got
      rw [List.map_map, ← Par.sum_procs ((send q).map Prod.fst) (K.send_nodup q hq) (by
        intro x hx
        obtain ⟨y, hy, rfl⟩ := List.mem_map.mp hx
        exact K.send_range q hq y hy), List.map_map]
      · congr 1
        apply List.map_congr_left
        intro x hx
        simp only [Function.comp]
        have hr := K.send_range q hq x hx
        have ht : ((x.1.toNat : Nat) : Int) = x.1 := Int.toNat_of_nonneg hr.1
        have hp : x.1.toNat < As.length := by omega
        have hm := H.recv_of_send x.1.toNat hp q hq x.2 (by rw [ht]; exact hx)
        rw [List.getElem?_eq_getElem hp]
        simp only
        rw [hS, Par.recvCoef_zip (hw _ hp) hA.cols_mono hcl (recv x.1.toNat) (K.recv_nodup _ hp) (hcm _ hp) (K.recv_owned _ hp) hq hm h0 h1,
          hAe _ hp]
      · intro p hp hnot
        rw [List.getElem?_eq_getElem hp]
        simp only
        unfold Par.offdBlockPart
        apply Finset.sum_eq_zero
        intro k hk
        rw [Finset.mem_Ico] at hk
        rw [if_neg]
        intro hcon
        apply hnot
        have hmem : vecAt co q + i ∈ As[p].colMap := by
          rw [← hcon, vecAt_int _ hk.1 hk.2]
          exact List.getElem_mem _
        rw [K.col_map p hp] at hmem
        obtain ⟨z, hz, hzm⟩ := List.mem_flatten.mp hmem
        obtain ⟨x, hx, rfl⟩ := List.mem_map.mp hz
        obtain ⟨c, hc, hce⟩ := List.mem_map.mp hzm
        obtain ⟨⟨a1, a2⟩, a3⟩ := K.recv_owned p hp x hx
        have a4 := a3 c hc
        have ht : ((x.1.toNat : Nat) : Int) = x.1 := Int.toNat_of_nonneg a1
        have hxq := Par.owner_unique hA.cols_mono hcl (p := x.1.toNat) (q := q) (by omega) hq (g := vecAt co q + i) (by rw [ht]; omega)
          (by omega)
        have hxq' : x = ((q : Int), x.2) := by
          apply Prod.ext
          · simp only; omega
          · rfl
        rw [hxq'] at hx
        exact List.mem_map.mpr ⟨_, (K.matching p q x.2 hp hq).mp hx, rfl⟩
    · have hcol : ∀ q (hq : q < As.length), As[q].colMap = [] := by
        intro q hq
        have hone : As.length = 1 := by omega
        have hq0 : q = 0 := by omega
        have w := hA.share q hq
        rw [List.eq_nil_iff_forall_not_mem]
        intro c hc
        have h2 := w.map_range c hc
        have h3 := w.map_other c hc
        have h4 := hA.cols_first
        rw [hone] at h2
        subst hq0
        simp only [Nat.cast_zero, zero_add, Nat.cast_one] at h2 h3
        omega
      obtain ⟨Ts, t1, t2, t3⟩ := Par.mapM_exists (iota As.length) (fun p => (do
          let A ← rd As p
          let oi ← mkVec (A.diag.cols + 1) (0 : Int)
          Par.trBuild reorder A oi [] [] [] : Res (ParMat R)))
        (fun q M => ∀ hq : q < As.length, M.WF (vecAt co q) (vecAt co (q + 1)) (vecAt co As.length)
          (vecAt ro q) (vecAt ro (q + 1)) (vecAt ro As.length) ∧
          ∀ i g, M.coef i g = (if vecAt ro q ≤ g ∧ g < vecAt ro (q + 1) then As[q].diag.coef (g - vecAt ro q) i else 0)) (by
          intro q hq
          rw [length_iota] at hq
          have w := hA.share q hq
          have hle := w.col_starts.le
          obtain ⟨M, m1, m2, m3⟩ := Par.trBuild_ok reorder hre w (List.replicate (vecAt co (q + 1) - vecAt co q).toNat []) []
            (by rw [List.length_replicate]; omega) (by
              intro r hr e he
              rw [List.eq_of_mem_replicate hr] at he
              simp at he) (by simp) (by simp)
          refine ⟨M, ?_, fun _ => ⟨m2, fun i g => by rw [m3]; simp⟩⟩
          rw [getElem_iota, rd_nat hq, ok_bind, w.diag_cols]
          have e1 : vecAt co (q + 1) - vecAt co q + 1 = (((vecAt co (q + 1) - vecAt co q).toNat + 1 : Nat) : Int) := by omega
          rw [e1, mkVec_nat, ok_bind, ← m1]
          have e2 : (List.replicate (vecAt co (q + 1) - vecAt co q).toNat ([] : List (Int × R))).flatten = [] := by simp
          rw [e2]
          congr 1
          apply List.ext_getElem
          · simp
          · intro k k1 k2
            rw [getElem_ptrs]
            simp [List.take_replicate])
      rw [length_iota] at t2
      refine ⟨Ts, ?_, t2, fun q hq => (t3 q (by rw [length_iota]; exact hq) hq).1, ?_⟩
      · unfold Par.parTranspose
        simp only
        rw [if_neg hn]
        exact t1
      · intro q hq i g h0 h1
        rw [(t3 q (by rw [length_iota]; exact hq) hq).2]
        conv_lhs => rw [← add_zero (ite _ _ _)]
        congr 1
        symm
        apply List.sum_eq_zero
        intro x hx
        obtain ⟨p, hp, rfl⟩ := List.mem_map.mp hx
        rw [List.mem_range] at hp
        rw [List.getElem?_eq_getElem hp]
        simp only [Par.offdBlockPart, hcol p hp]
        simp
  refine ⟨Ts, t1, t2, ?_, ?_⟩
  · refine ⟨by rw [t2]; exact hcl, by rw [t2]; exact hrl, hA.cols_first, hA.rows_first, hA.cols_mono, hA.rows_mono, ?_⟩
    intro q hq
    rw [t2]
    exact t3 q (by omega)
  · intro g c
    have hstart : ∀ p (hp : p < As.length), vecAt As[p].rowStarts 0 = vecAt ro p := by
      intro p hp; rw [(hA.share p hp).row_starts.eq]; rfl
    have hrange : Par.globalCoef As g c = ((List.range As.length).map (fun p => match As[p]? with
        | some A => A.coef (g - vecAt ro p) c
        | none => 0)).sum := by
      unfold Par.globalCoef
      congr 1
      apply List.ext_getElem
      · simp
      · intro p h1 h2
        rw [List.length_map] at h1
        simp only [List.getElem_map, List.getElem_range, List.getElem?_eq_getElem h1, hstart p h1]
    have hcoef : ∀ p (hp : p < As.length), As[p].coef (g - vecAt ro p) c
        = (if vecAt co p ≤ c ∧ c < vecAt co (p + 1) then As[p].diag.coef (g - vecAt ro p) (c - vecAt co p) else 0)
          + Par.offdBlockPart As[p] (g - vecAt ro p) c := by
      intro p hp
      unfold ParMat.coef
      rw [(hA.share p hp).col_starts.eq]
      rfl
    by_cases hc : 0 ≤ c ∧ c < vecAt co As.length
    · obtain ⟨q, hq, o1, o2⟩ := Par.owner_exists (l := co) (n := As.length) (g := c) (by rw [hA.cols_first]; exact hc.1) hc.2
      have hdT : Par.IsDist Ts co ro := by
        refine ⟨by rw [t2]; exact hcl, by rw [t2]; exact hrl, hA.cols_first, hA.rows_first, hA.cols_mono, hA.rows_mono, ?_⟩
        intro q hq
        rw [t2]
        exact t3 q (by omega)
      have hg := Par.globalCoef_owner hdT q (by omega) (i := c - vecAt co q) (by omega) (by omega) g
      have e1 : vecAt co q + (c - vecAt co q) = c := by omega
      rw [e1] at hg
      rw [hg, t4 q hq _ g (by omega) (by omega), e1, hrange]
      have hsplit : (List.range As.length).map (fun p => match As[p]? with
          | some A => A.coef (g - vecAt ro p) c
          | none => 0)
          = (List.range As.length).map (fun p => (match As[p]? with
            | some A => if vecAt co p ≤ c ∧ c < vecAt co (p + 1) then A.diag.coef (g - vecAt ro p) (c - vecAt co p) else 0
            | none => 0) + (match As[p]? with
            | some A => Par.offdBlockPart A (g - vecAt ro p) c
            | none => 0)) := by
        apply List.map_congr_left
        intro p hp
        rw [List.mem_range] at hp
        rw [List.getElem?_eq_getElem hp]
        exact hcoef p hp
      rw [hsplit, List.sum_map_add]
      congr 1
      rw [Par.sum_single _ _ q (by simpa using hq)]
      · simp only [List.getElem_range, List.getElem?_eq_getElem hq]
        rw [if_pos (c := vecAt co q ≤ c ∧ c < vecAt co (q + 1)) ⟨o1, o2⟩]
        split
        · rfl
        · rename_i hn
          rw [Csr.coef_of_not_row (hA.share q hq).diag_wf]
          rw [(hA.share q hq).diag_rows]
          omega
      · intro j hj hne
        rw [List.length_range] at hj
        simp only [List.getElem_range, List.getElem?_eq_getElem hj]
        rw [if_neg]
        intro hcon
        exact hne (Par.owner_unique hA.cols_mono hcl hj hq hcon ⟨o1, o2⟩)
    · have hR : Par.globalCoef As g c = 0 := by
        rw [hrange]
        apply List.sum_eq_zero
        intro x hx
        obtain ⟨p, hp, rfl⟩ := List.mem_map.mp hx
        rw [List.mem_range] at hp
        rw [List.getElem?_eq_getElem hp]
        simp only
        have w := hA.share p hp
        have b1 := w.col_starts.first_nonneg
        have b2 := w.col_starts.last_le
        rw [hcoef p hp, if_neg (by omega), zero_add]
        unfold Par.offdBlockPart
        apply Finset.sum_eq_zero
        intro k hk
        rw [Finset.mem_Ico] at hk
        rw [if_neg]
        intro hcon
        have hmem : c ∈ As[p].colMap := by
          rw [← hcon, vecAt_int _ hk.1 hk.2]
          exact List.getElem_mem _
        exact hc (w.map_range c hmem)
      rw [hR]
      unfold Par.globalCoef
      apply List.sum_eq_zero
      intro x hx
      obtain ⟨M, hM, rfl⟩ := List.mem_map.mp hx
      obtain ⟨q, hq, rfl⟩ := List.getElem_of_mem hM
      have w := t3 q (by omega)
      have b1 := w.row_starts.first_nonneg
      have b2 := w.row_starts.last_le
      refine Par.coef_of_not_row w ?_ g
      rw [w.row_starts.eq, (Par.vecAt_starts _ _ _).1]
      omega

namespace Par

/-- An ascending list, cut at the starts. -/
theorem filter_owned (l co : List Int) (hl : l.Pairwise (· < ·)) (n : Nat) (hlen : n < co.length) (hm : co.Pairwise (· ≤ ·))
    (h0 : ∀ x ∈ l, vecAt co 0 ≤ x) :
    ((List.range n).map (fun q : Nat => l.filter (fun x => vecAt co q ≤ x ∧ x < vecAt co (q + 1)))).flatten
      = l.filter (fun x => x < vecAt co n) := by
  induction n with
  | zero =>
    symm
    simp only [List.range_zero, List.map_nil, List.flatten_nil, List.filter_eq_nil_iff, decide_eq_true_eq]
    intro x hx
    have := h0 x hx
    simp only [Nat.cast_zero]
    omega
  | succ n ih =>
    rw [List.range_succ, List.map_append, List.flatten_append, ih (by omega)]
    have hmn := IsDist.mono hm (p := n) (q := n + 1) (by omega) hlen
    clear ih h0
    push_cast at hmn ⊢
    simp only [List.map_cons, List.map_nil, List.flatten_cons, List.flatten_nil, List.append_nil]
    induction l with
    | nil => rfl
    | cons x l ih =>
      rw [List.pairwise_cons] at hl
      by_cases h1 : x < vecAt co n
      · rw [List.filter_cons_of_pos (by simpa using h1), List.filter_cons_of_neg (by simp; omega), List.filter_cons_of_pos (by simp; omega),
          List.cons_append, ih hl.2]
      · have hno : l.filter (fun x => decide (x < vecAt co n)) = [] := by
          rw [List.filter_eq_nil_iff]
          intro y hy
          have := hl.1 y hy
          simp; omega
        have ih' := ih hl.2
        rw [hno, List.nil_append] at ih'
        rw [List.filter_cons_of_neg (by simpa using h1), hno, List.nil_append]
        by_cases h2 : x < vecAt co ((n : Int) + 1)
        · rw [List.filter_cons_of_pos (by simp; omega), List.filter_cons_of_pos (by simpa using h2), ih']
        · rw [List.filter_cons_of_neg (by simp; omega), List.filter_cons_of_neg (by simpa using h2), ih']

/-- The columns of process `q` that process `p` needs. -/
def needed (Ms : List (ParMat α)) (co : List Int) (p q : Nat) : List Int :=
  (((Ms[p]?).map (·.colMap)).getD [] |>.filter (fun x => vecAt co q ≤ x ∧ x < vecAt co (q + 1))).map (· - vecAt co q)

/-- Every distributed matrix has a fitting communication package. -/
theorem exists_pkgs (Ms : List (ParMat α)) (ro co : List Int) (h : IsDist Ms ro co) : ∃ pkgs, IsCommPkg pkgs Ms co := by
  refine ⟨(List.range Ms.length).map (fun p => ⟨(List.range Ms.length).map (fun q : Nat => (q : Int)),
      startsOf ((List.range Ms.length).map (fun q : Nat => needed Ms co p q)), (List.range Ms.length).map (fun q : Nat => (q : Int)),
      startsOf ((List.range Ms.length).map (fun q : Nat => needed Ms co q p)), ((List.range Ms.length).map (fun q : Nat => needed Ms co q p)).flatten⟩),
    fun p => (List.range Ms.length).map (fun q : Nat => ((q : Int), needed Ms co p q)),
    fun p => (List.range Ms.length).map (fun q : Nat => ((q : Int), needed Ms co q p)), ?_⟩
  have hnd : ((List.range Ms.length).map (fun q : Nat => (q : Int))).Nodup :=
    List.Nodup.map (fun a b h => by simpa using h) List.nodup_range
  refine ⟨by simp, ?_, ?_, ?_, ?_, ?_, ?_, ?_, ?_, ?_, ?_, ?_⟩
  · intro p hp; simp [Function.comp_def]
  · intro p hp; simp [Function.comp_def]
  · intro p hp; simp [Function.comp_def]
  · intro p hp; simp [Function.comp_def]
  · intro p hp; simp [Function.comp_def]
  · intro p hp
    have w := h.share p hp
    rw [List.map_map]
    have e : ∀ q ∈ List.range Ms.length, ((fun x : Int × List Int => x.2.map (vecAt co x.1 + ·)) ∘ fun q : Nat => ((q : Int), needed Ms co p q)) q
        = Ms[p].colMap.filter (fun x => vecAt co q ≤ x ∧ x < vecAt co (q + 1)) := by
      intro q _
      simp only [Function.comp, needed, List.getElem?_eq_getElem hp, Option.map_some, Option.getD_some, List.map_map]
      conv_rhs => rw [← List.map_id (List.filter _ _)]
      apply List.map_congr_left
      intro x _
      simp
    rw [List.map_congr_left e, filter_owned _ co w.map_sorted Ms.length (by rw [h.cols_len]; omega) h.cols_mono]
    · symm
      rw [List.filter_eq_self]
      intro x hx
      simpa using (w.map_range x hx).2
    · intro x hx
      rw [h.cols_first]
      exact (w.map_range x hx).1
  · intro p _
    simpa [Function.comp_def] using hnd
  · intro p _
    simpa [Function.comp_def] using hnd
  · intro p hp x hx
    obtain ⟨q, hq, rfl⟩ := List.mem_map.mp hx
    rw [List.mem_range] at hq
    refine ⟨⟨by omega, by simpa using hq⟩, ?_⟩
    intro c hc
    obtain ⟨y, hy, rfl⟩ := List.mem_map.mp hc
    have := (List.mem_filter.mp hy).2
    simp only [decide_eq_true_eq] at this
    simp only
    omega
  · intro q hq x hx
    obtain ⟨p, hp, rfl⟩ := List.mem_map.mp hx
    rw [List.mem_range] at hp
    exact ⟨by simp, by simpa using hp⟩
  · intro p q l hp hq
    constructor
    · intro hm
      obtain ⟨q', hq', e⟩ := List.mem_map.mp hm
      simp only [Prod.mk.injEq, Nat.cast_inj] at e
      obtain ⟨rfl, rfl⟩ := e
      exact List.mem_map.mpr ⟨p, List.mem_range.mpr hp, rfl⟩
    · intro hm
      obtain ⟨p', hp', e⟩ := List.mem_map.mp hm
      simp only [Prod.mk.injEq, Nat.cast_inj] at e
      obtain ⟨rfl, rfl⟩ := e
      exact List.mem_map.mpr ⟨q, List.mem_range.mpr hq, rfl⟩

/-- The received rows written out in full. -/
def fullExtract [AddCommMonoid R] (Bs : List (ParMat R)) (A : ParMat R) : Csr R :=
  let cn := ((Bs.head?.map (·.globalCols)).getD 0)
  Csr.ofRows cn (A.colMap.map (fun k => (iota cn.toNat).map (fun c => (c, globalCoef Bs k c))))

theorem fullExtract_isExtractor [AddCommMonoid R] : IsExtractor (fullExtract (R := R)) := by
  intro Bs ro co hB A hk
  have hcn : ((Bs.head?.map (·.globalCols)).getD 0) = vecAt co Bs.length := by
    cases hb : Bs with
    | nil => simp [hB.cols_first]
    | cons B Bs' =>
      have h0 : 0 < Bs.length := by rw [hb]; simp
      have w := (hB.share 0 h0).col_starts.eq
      have e : Bs[0] = B := by simp [hb]
      rw [e] at w
      rw [← hb]
      simp only [hb, List.head?_cons, Option.map_some, Option.getD_some, ParMat.globalCols, w]
      rw [← hb]; rfl
  have hnn : 0 ≤ vecAt co Bs.length := by
    have := IsDist.mono hB.cols_mono (p := 0) (q := Bs.length) (by omega) (by rw [hB.cols_len]; omega)
    have h2 := hB.cols_first
    push_cast at this
    omega
  have hwf : (fullExtract Bs A).WF := by
    unfold fullExtract
    simp only [hcn]
    refine Csr.wf_ofRows hnn ?_
    intro r hr e he
    obtain ⟨k, _, rfl⟩ := List.mem_map.mp hr
    obtain ⟨c, hc, rfl⟩ := List.mem_map.mp he
    rw [mem_iota] at hc
    omega
  refine ⟨hwf, by simp [fullExtract, Csr.ofRows], by simp only [fullExtract, Csr.ofRows, hcn], ?_⟩
  intro k c h0 h1
  by_cases hc : 0 ≤ c ∧ c < vecAt co Bs.length
  · unfold fullExtract
    simp only [hcn]
    rw [coef_ofRows_getD _ _ h0, List.getD_eq_getElem?_getD, List.getElem?_map, List.getElem?_eq_getElem (by omega), vecAt_int _ h0 h1]
    simp only [Option.map_some, Option.getD_some]
    rw [rowCoef_map_nodup (iota (vecAt co Bs.length).toNat) (by
      unfold iota
      exact List.Nodup.map (fun a b h => by simpa using h) List.nodup_range) _ c]
    intro hno
    exact absurd (mem_iota.mpr (by omega)) hno
  · rw [Csr.coef_of_not_col hwf (by
      have : (fullExtract Bs A).cols = vecAt co Bs.length := by simp only [fullExtract, Csr.ofRows, hcn]
      rw [this]; exact hc)]
    symm
    unfold globalCoef
    apply List.sum_eq_zero
    intro x hx
    obtain ⟨M, hM, rfl⟩ := List.mem_map.mp hx
    obtain ⟨q, hq, rfl⟩ := List.getElem_of_mem hM
    have w := hB.share q hq
    have b1 := w.col_starts.first_nonneg
    have b2 := w.col_starts.last_le
    unfold ParMat.coef
    rw [w.col_starts.eq, (vecAt_starts _ _ _).1, (vecAt_starts _ _ _).2.1, if_neg (by omega), zero_add]
    apply Finset.sum_eq_zero
    intro j hj
    rw [Finset.mem_Ico] at hj
    rw [if_neg]
    intro hcon
    refine hc (w.map_range c ?_)
    rw [← hcon, vecAt_int _ hj.1 hj.2]
    exact List.getElem_mem _

end Par

/-! ## C78 -/

/-- Every distributed matrix has a communication package that fits it, so the hypothesis of `C77_parTranspose` can always be met. -/
theorem C77_packages_exist (Ms : List (ParMat α)) (ro co : List Int) (h : Par.IsDist Ms ro co) : ∃ pkgs, Par.IsCommPkg pkgs Ms co :=
  Par.exists_pkgs Ms ro co h

/-- **C78.**  `RAP(R, A, P)` on all processes, for matrices distributed over the same processes such that the rows of `R` and of `A` and
the columns of `A` and the rows of `P` are distributed alike: the result is distributed like the columns of `R` and of `P`, and is the
triple product `Rᵀ A P`. -/
theorem C78_rap [NonUnitalSemiring R] (srt : Csr.Sorter) (hs : IsSort srt) (search : List Int → Int → Int)
    (hsearch : IsSearch search) (reorder : Csr R → Csr R) (hre : Reorders reorder)
    (extract : List (ParMat R) → ParMat R → Csr R) (hext : Par.IsExtractor extract) (pkgs : List Par.CommPkg)
    (Rs As Ps : List (ParMat R)) (fo fo' co co' : List Int) (hR : Par.IsDist Rs fo co) (hA : Par.IsDist As fo fo')
    (hP : Par.IsDist Ps fo' co') (hl : Rs.length = As.length) (hl' : As.length = Ps.length)
    (hpk : Rs.length > 1 → Par.IsCommPkg pkgs Rs co) :
    ∃ Cs, Par.rap srt search reorder extract pkgs Rs As Ps = .ok Cs ∧ Cs.length = Rs.length ∧ Par.IsDist Cs co co' ∧
      ∀ g c, Par.globalCoef Cs g c = ∑ k ∈ Finset.Ico (0 : Int) (vecAt fo As.length), ∑ j ∈ Finset.Ico (0 : Int) (vecAt fo' As.length),
        Par.globalCoef Rs k g * (Par.globalCoef As k j * Par.globalCoef Ps j c) := by
  obtain ⟨Ts, t1, t2, t3, t4⟩ := C77_parTranspose srt hs search hsearch reorder hre pkgs Rs fo co hR hpk
  have hx : ∀ (Xs Ys : List (ParMat R)) (ro ko lo : List Int), Par.IsDist Xs ro ko → Par.IsDist Ys ko lo → Xs.length = Ys.length →
      ∀ X ∈ Xs, Par.IsExtract extract Ys (vecAt lo Ys.length) X := by
    intro Xs Ys ro ko lo h1 h2 h3 X hX
    obtain ⟨p, hp, rfl⟩ := List.getElem_of_mem hX
    refine hext Ys ko lo h2 _ ?_
    rw [← h3]
    exact (h1.share p hp).map_range
  obtain ⟨Ms, m1, m2, m3, m4⟩ := C76_parMult srt hs search hsearch reorder hre extract As Ps fo fo' co' hA hP hl'
    (fun _ => hx As Ps fo fo' co' hA hP hl')
  obtain ⟨Cs, c1, c2, c3, c4⟩ := C76_parMult srt hs search hsearch reorder hre extract Ts Ms co fo co' t3 m3 (by omega)
    (fun _ => hx Ts Ms co fo co' t3 m3 (by omega))
  refine ⟨Cs, ?_, by omega, c3, ?_⟩
  · unfold Par.rap
    rw [t1, ok_bind, m1, ok_bind, c1]
  · intro g c
    rw [c4]
    have e : Ts.length = As.length := by omega
    rw [e]
    apply Finset.sum_congr rfl
    intro k _
    rw [t4, m4, Finset.mul_sum]

/-! ### A run on two processes: the transpose of `[[1, 2], [4, 3]]` -/

namespace Par

def exPkgs : List CommPkg := [⟨[1], [0, 1], [1], [0, 1], [0]⟩, ⟨[0], [0, 1], [0], [0, 1], [0]⟩]

def exAT : List (ParMat Int) :=
  [⟨1, 1, [0, 1, 2], [0, 1, 2], ⟨1, 1, [0, 1], [0], [1]⟩, ⟨1, 1, [0, 1], [0], [4]⟩, [1]⟩,
   ⟨1, 1, [1, 2, 2], [1, 2, 2], ⟨1, 1, [0, 1], [0], [3]⟩, ⟨1, 1, [0, 1], [0], [2]⟩, [0]⟩]

theorem exPkgs_ok : IsCommPkg exPkgs exA [0, 1, 2] := by
  refine ⟨fun p => if p = 0 then [(1, [0])] else [(0, [0])], fun p => if p = 0 then [(1, [0])] else [(0, [0])], ?_⟩
  have two : ∀ p < 2, p = 0 ∨ p = 1 := by omega
  refine ⟨rfl, ?_, ?_, ?_, ?_, ?_, ?_, ?_, ?_, ?_, ?_, ?_⟩
  · intro p hp; rcases two p hp with rfl | rfl <;> (try rfl) <;> decide
  · intro p hp; rcases two p hp with rfl | rfl <;> (try rfl) <;> decide
  · intro p hp; rcases two p hp with rfl | rfl <;> (try rfl) <;> decide
  · intro p hp; rcases two p hp with rfl | rfl <;> (try rfl) <;> decide
  · intro p hp; rcases two p hp with rfl | rfl <;> (try rfl) <;> decide
  · intro p hp; rcases two p hp with rfl | rfl <;> (try rfl) <;> decide
  · intro p hp; rcases two p hp with rfl | rfl <;> (try rfl) <;> decide
  · intro p hp; rcases two p hp with rfl | rfl <;> (try rfl) <;> decide
  · intro p hp; rcases two p hp with rfl | rfl <;> (try rfl) <;> decide
  · intro p hp; rcases two p hp with rfl | rfl <;> (try rfl) <;> decide
  · intro p q l hp hq
    rcases two p hp with rfl | rfl <;> rcases two q hq with rfl | rfl <;> simp

end Par

example : Par.IsDist Par.exA [0, 1, 2] [0, 1, 2] ∧ Par.IsCommPkg Par.exPkgs Par.exA [0, 1, 2] ∧ IsSort Par.exSort ∧
    IsSearch Par.exSearch ∧ Par.IsExtractor (Par.fullExtract (R := Int)) ∧
    Par.parTranspose Par.exSort Par.exSearch id Par.exPkgs Par.exA = .ok Par.exAT ∧
    Par.globalCoef Par.exAT 0 1 = 4 ∧ Par.globalCoef Par.exA 1 0 = 4 :=
  ⟨Par.exDist.1, Par.exPkgs_ok, Par.exSort_isSort, Par.exSearch_isSearch, Par.fullExtract_isExtractor, by decide +kernel, by decide +kernel,
    by decide +kernel⟩

/-- `[[1, 2], [4, 3]]ᵀ * [[5, 0], [7, 6]] * [[1, 2], [4, 3]] = [[129, 138], [103, 116]]`. -/
example : (Par.rap Par.exSort Par.exSearch id Par.fullExtract Par.exPkgs Par.exA Par.exB Par.exA).map
    (fun Cs => (Par.globalCoef Cs 0 0, Par.globalCoef Cs 0 1, Par.globalCoef Cs 1 0, Par.globalCoef Cs 1 1)) = .ok (129, 138, 103, 116) := by
  decide +kernel

end Linalg
