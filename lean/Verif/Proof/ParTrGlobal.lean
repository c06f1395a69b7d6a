import Verif.Proof.ParTrLocal
import Verif.Spec.ParComm

/-! # `ParMatrix::Transpose` on all processes -/

namespace Linalg
open Cpp

variable {α β γ σ R : Type}

namespace Par

theorem startsOf_eq (ls : List (List β)) : startsOf ls = ptrs ls := by
  unfold startsOf ptrs
  apply List.map_congr_left
  intro k _
  rw [List.length_flatten]

theorem mapM_iota {n : Nat} (f : Int → Res γ) (g : Nat → γ) (h : ∀ p < n, f (p : Int) = .ok (g p)) :
    (iota n).mapM f = .ok ((List.range n).map g) := by
  obtain ⟨cs, c1, c2, c3⟩ := mapM_exists (iota n) f (fun p c => c = g p) (by
    intro p hp
    rw [length_iota] at hp
    exact ⟨g p, by rw [getElem_iota]; exact h p hp, rfl⟩)
  rw [c1]
  congr 1
  rw [length_iota] at c2
  apply List.ext_getElem
  · simp [c2]
  · intro p q1 q2
    rw [c3 p (by rw [length_iota]; omega)]
    simp

theorem rd_range {n : Nat} (g : Nat → γ) {p : Nat} (h : p < n) : rd ((List.range n).map g) (p : Int) = .ok (g p) := by
  rw [rd_nat (by simpa using h)]
  simp

/-- The part of the rows that belongs to process `q`. -/
def seg (rc : List (Int × List Int)) (S : List β) (q : Int) : List β :=
  (chunks (rc.map (fun x => x.2.length)) S).getD ((rc.map Prod.fst).idxOf q) []

theorem idx_of_mem {rc : List (Int × List Int)} (hnd : (rc.map Prod.fst).Nodup) {q : Int} {l : List Int} (h : (q, l) ∈ rc) :
    ∃ hi : (rc.map Prod.fst).idxOf q < rc.length, rc[(rc.map Prod.fst).idxOf q] = (q, l) := by
  have hm : q ∈ rc.map Prod.fst := List.mem_map.mpr ⟨_, h, rfl⟩
  have hi := List.idxOf_lt_length_of_mem hm
  rw [List.length_map] at hi
  refine ⟨hi, ?_⟩
  obtain ⟨j, hj, e⟩ := List.getElem_of_mem h
  have h1 : (rc.map Prod.fst)[(rc.map Prod.fst).idxOf q]'(by simpa using hi) = q := List.getElem_idxOf _
  have h2 : (rc.map Prod.fst)[j]'(by simpa using hj) = q := by rw [List.getElem_map, e]
  have := (List.Nodup.getElem_inj_iff hnd).mp (h1.trans h2.symm)
  rw [← e]
  congr 1

theorem seg_eq {rc : List (Int × List Int)} (hnd : (rc.map Prod.fst).Nodup) (S : List β) {q : Int} {l : List Int} (h : (q, l) ∈ rc) :
    ∃ hi : (rc.map Prod.fst).idxOf q < (chunks (rc.map (fun x => x.2.length)) S).length,
      seg rc S q = (chunks (rc.map (fun x => x.2.length)) S)[(rc.map Prod.fst).idxOf q] := by
  obtain ⟨hi, -⟩ := idx_of_mem hnd h
  have hi' : (rc.map Prod.fst).idxOf q < (chunks (rc.map (fun x => x.2.length)) S).length := by
    rw [length_chunks, List.length_map]; exact hi
  refine ⟨hi', ?_⟩
  unfold seg
  rw [List.getD_eq_getElem?_getD, List.getElem?_eq_getElem hi']
  rfl

theorem length_seg {rc : List (Int × List Int)} (hnd : (rc.map Prod.fst).Nodup) (S : List β)
    (hsum : (rc.map (fun x => x.2.length)).sum = S.length) {q : Int} {l : List Int} (h : (q, l) ∈ rc) : (seg rc S q).length = l.length := by
  obtain ⟨hi, e⟩ := seg_eq hnd S h
  obtain ⟨hj, e'⟩ := idx_of_mem hnd h
  rw [e]
  have hl := chunks_lengths (rc.map (fun x => x.2.length)) S (by omega)
  have := congrArg (fun z => z[(rc.map Prod.fst).idxOf q]?) hl
  rw [List.getElem?_map, List.getElem?_map, List.getElem?_eq_getElem hi, List.getElem?_eq_getElem hj] at this
  simp only [Option.map_some, Option.some.injEq] at this
  rw [this, e']

theorem mem_seg {rc : List (Int × List Int)} (S : List β) (hsum : (rc.map (fun x => x.2.length)).sum = S.length) {q : Int} {x : β}
    (hx : x ∈ seg rc S q) : x ∈ S := by
  unfold seg at hx
  rw [List.getD_eq_getElem?_getD] at hx
  rw [← chunks_flatten (rc.map (fun x => x.2.length)) S hsum]
  cases hg : (chunks (rc.map (fun x => x.2.length)) S)[(rc.map Prod.fst).idxOf q]? with
  | none => rw [hg] at hx; simp at hx
  | some c =>
    rw [hg] at hx
    exact List.mem_flatten.mpr ⟨c, List.mem_of_getElem? hg, hx⟩

/-- What the processes have to know about each other. -/
structure Plan (n : Nat) (recv send : Nat → List (Int × List Int)) (S : Nat → List (List (Int × α))) : Prop where
  sum : ∀ p < n, ((recv p).map (fun x => x.2.length)).sum = (S p).length
  nodup : ∀ p < n, ((recv p).map Prod.fst).Nodup
  range : ∀ q < n, ∀ x ∈ send q, 0 ≤ x.1 ∧ x.1 < (n : Int)
  recv_of_send : ∀ p < n, ∀ q < n, ∀ l, ((p : Int), l) ∈ send q → ((q : Int), l) ∈ recv p

/-- The rows that arrive at process `q`, by sender. -/
def got (recv send : Nat → List (Int × List Int)) (S : Nat → List (List (Int × α))) (q : Nat) : List (List (Int × List (Int × α))) :=
  (send q).map (fun x => x.2.zip (seg (recv x.1.toNat) (S x.1.toNat) (q : Int)))

theorem Plan.length_seg {n : Nat} {recv send : Nat → List (Int × List Int)} {S : Nat → List (List (Int × α))} (H : Plan n recv send S)
    {q : Nat} (hq : q < n) {x : Int × List Int} (hx : x ∈ send q) :
    (seg (recv x.1.toNat) (S x.1.toNat) (q : Int)).length = x.2.length := by
  have hr := H.range q hq x hx
  refine Par.length_seg (H.nodup _ (by omega)) _ (H.sum _ (by omega)) (H.recv_of_send _ (by omega) q hq _ ?_)
  rw [Int.toNat_of_nonneg hr.1]
  exact hx

theorem exchange_ok {n : Nat} {recv send : Nat → List (Int × List Int)} {S : Nat → List (List (Int × α))} (H : Plan n recv send S)
    (pkgs : List CommPkg) (P : Nat → CommPkg) (hP : ∀ p < n, rd pkgs (p : Int) = .ok (P p)) (h : List (List (Int × α)) → List β)
    (data : List (List β)) (rest : Nat → List β)
    (hD : ∀ p < n, rd data (p : Int) = .ok (((chunks ((recv p).map (fun x => x.2.length)) (S p)).map h).flatten ++ rest p))
    (hrp : ∀ p < n, (P p).recvProcs = (recv p).map Prod.fst) (hsp : ∀ p < n, (P p).sendProcs = (send p).map Prod.fst)
    (hrs : ∀ p < n, (P p).recvStarts = ptrs ((chunks ((recv p).map (fun x => x.2.length)) (S p)).map h))
    (hss : ∀ q < n, (P q).sendStarts = ptrs ((send q).map (fun x => h (seg (recv x.1.toNat) (S x.1.toNat) (q : Int)))))
    {q : Nat} (hq : q < n) :
    revExchange pkgs data (q : Int) = .ok ((send q).map (fun x => h (seg (recv x.1.toNat) (S x.1.toNat) (q : Int)))).flatten := by
  refine revExchange_ok (hP q hq) _ (by rw [hsp q hq]; simp) (hss q hq) ?_
  intro j hj
  rw [List.length_map] at hj
  have hx := List.getElem_mem hj
  have hr := H.range q hq _ hx
  have hpn : ((send q)[j].1.toNat : Int) = (send q)[j].1 := Int.toNat_of_nonneg hr.1
  have hlt : (send q)[j].1.toNat < n := by omega
  have hm : ((q : Int), (send q)[j].2) ∈ recv (send q)[j].1.toNat := by
    refine H.recv_of_send _ hlt q hq _ ?_
    rw [hpn]; exact hx
  have d1 := hP _ hlt
  have d2 := hD _ hlt
  rw [hpn] at d1 d2
  refine ⟨(send q)[j].1, _, _, ?_, d1, d2, ?_⟩
  · rw [hsp q hq, rd_nat (by simpa using hj), List.getElem_map]
  · obtain ⟨hi, e⟩ := seg_eq (H.nodup _ hlt) (S (send q)[j].1.toNat) hm
    rw [message_ok _ _ _ (q : Int) _ (by rw [List.length_map]; exact hi) (by rw [hrp _ hlt]) (hrs _ hlt)]
    rw [List.getElem_map, List.getElem_map, e]

theorem zip_flatten {β γ : Type} (as : List (List β)) (bs : List (List γ)) (h : as.map List.length = bs.map List.length) :
    as.flatten.zip bs.flatten = ((as.zip bs).map (fun y => y.1.zip y.2)).flatten := by
  induction as generalizing bs with
  | nil => simp
  | cons a as ih =>
    cases bs with
    | nil => simp at h
    | cons b bs =>
      simp only [List.map_cons, List.cons.injEq] at h
      simp only [List.flatten_cons, List.zip_cons_cons, List.map_cons]
      rw [List.zip_append h.1, ih bs h.2]

theorem got_lengths {n : Nat} {recv send : Nat → List (Int × List Int)} {S : Nat → List (List (Int × α))} (H : Plan n recv send S)
    {q : Nat} (hq : q < n) : (got recv send S q).map List.length = ((send q).map Prod.snd).map List.length := by
  unfold got
  rw [List.map_map, List.map_map]
  apply List.map_congr_left
  intro x hx
  simp only [Function.comp, List.length_zip, H.length_seg hq hx, Nat.min_self]

theorem got_fst {n : Nat} {recv send : Nat → List (Int × List Int)} {S : Nat → List (List (Int × α))} (H : Plan n recv send S)
    {q : Nat} (hq : q < n) : (got recv send S q).flatten.map Prod.fst = ((send q).map Prod.snd).flatten := by
  unfold got
  rw [List.map_flatten, List.map_map]
  congr 1
  apply List.map_congr_left
  intro x hx
  simp only [Function.comp]
  rw [List.map_fst_zip (le_of_eq (H.length_seg hq hx).symm)]

theorem got_snd {n : Nat} {recv send : Nat → List (Int × List Int)} {S : Nat → List (List (Int × α))} (H : Plan n recv send S)
    {q : Nat} (hq : q < n) {x : Int × List Int} (hx : x ∈ send q) :
    (x.2.zip (seg (recv x.1.toNat) (S x.1.toNat) (q : Int))).map Prod.snd = seg (recv x.1.toNat) (S x.1.toNat) (q : Int) :=
  List.map_snd_zip (le_of_eq (H.length_seg hq hx))

theorem recvTriples_map (f : Int × α → β) (E : List (Int × List (Int × α))) :
    (recvTriples E).map (fun t => f (t.1, t.2.2)) = (E.map Prod.snd).flatten.map f := by
  induction E with
  | nil => rfl
  | cons e E ih =>
    have : recvTriples (e :: E) = rowTriples e ++ recvTriples E := by simp [recvTriples]
    rw [this, List.map_append, ih, List.map_cons, List.flatten_cons, List.map_append]
    simp [rowTriples, Function.comp_def]

/-- What process `p` prepares. -/
def sendOf (recv : Nat → List (Int × List Int)) (S : Nat → List (List (Int × α))) (p : Nat) : TrSend α :=
  ⟨(S p).map (fun r => (r.length : Int)) ++ [((S p).flatten.length : Int)],
    (S p).flatten.map Prod.fst, (S p).flatten.map Prod.snd,
    ptrs ((chunks ((recv p).map (fun x => x.2.length)) (S p)).map List.flatten)⟩

/-- The sizes that process `q` receives. -/
def sizesOf (recv send : Nat → List (Int × List Int)) (S : Nat → List (List (Int × α))) (q : Nat) : List Int :=
  (got recv send S q).flatten.map (fun e => (e.2.length : Int))

/-- What process `q` counts. -/
def countOf (recv send : Nat → List (Int × List Int)) (S : Nat → List (List (Int × α))) (C q : Nat) : List Int × List Int :=
  (ptrs ((got recv send S q).map (fun g => (g.map Prod.snd).flatten)), ptrs (trRows (recvTriples (got recv send S q).flatten) C))

/-- The package for the entries. -/
def tmpOf (P : Nat → CommPkg) (recv send : Nat → List (Int × List Int)) (S : Nat → List (List (Int × α))) (C q : Nat) : CommPkg :=
  ⟨(P q).recvProcs, (sendOf recv S q).recvStarts, (P q).sendProcs, (countOf recv send S C q).1, (P q).sendElmts⟩

theorem run_ok [AddCommMonoid R] (srt : Csr.Sorter) (hs : IsSort srt) (search : List Int → Int → Int) (hsearch : IsSearch search)
    (reorder : Csr R → Csr R) (hre : Reorders reorder) (As : List (ParMat R)) (pkgs : List CommPkg) (n : Nat) (hlen : As.length = n)
    (hn : n > 1) (A : Nat → ParMat R) (P : Nat → CommPkg) (hA : ∀ p < n, rd As (p : Int) = .ok (A p))
    (hP : ∀ p < n, rd pkgs (p : Int) = .ok (P p)) (r0 r1 c0 c1 : Nat → Int) (rn cn : Int)
    (hwf : ∀ p < n, (A p).WF (r0 p) (r1 p) rn (c0 p) (c1 p) cn) (recv send : Nat → List (Int × List Int))
    (S : Nat → List (List (Int × R))) (hS : ∀ p < n, S p = sentRows (r0 p) (A p).offd.rowsL (A p).colMap.length)
    (H : Plan n recv send S)
    (hrp : ∀ p < n, (P p).recvProcs = (recv p).map Prod.fst) (hsp : ∀ p < n, (P p).sendProcs = (send p).map Prod.fst)
    (hrs : ∀ p < n, (P p).recvStarts = ptrs ((recv p).map Prod.snd)) (hss : ∀ p < n, (P p).sendStarts = ptrs ((send p).map Prod.snd))
    (hel : ∀ p < n, (P p).sendElmts = ((send p).map Prod.snd).flatten)
    (hcol : ∀ q < n, ∀ x ∈ send q, ∀ c ∈ x.2, 0 ≤ c ∧ c < c1 q - c0 q)
    (hout : ∀ q < n, ∀ e ∈ (got recv send S q).flatten, ∀ x ∈ e.2, (0 ≤ x.1 ∧ x.1 < rn) ∧ (x.1 < r0 q ∨ r1 q ≤ x.1)) :
    ∃ Ts, parTranspose srt search reorder pkgs As = .ok Ts ∧ ∃ hl : Ts.length = n, ∀ q (hq : q < n),
      (Ts[q]'(by omega)).WF (c0 q) (c1 q) cn (r0 q) (r1 q) rn ∧ ∀ i g, 0 ≤ i → i < c1 q - c0 q →
        (Ts[q]'(by omega)).coef i g = (if r0 q ≤ g ∧ g < r1 q then (A q).diag.coef (g - r0 q) i else 0)
          + recvCoef (got recv send S q).flatten i g := by
  have hNS : ∀ p < n, (S p).length = (A p).colMap.length := by
    intro p hp
    rw [hS p hp, length_sentRows]
  have hmm : ∀ p, (recv p).map (fun x => x.2.length) = ((recv p).map Prod.snd).map List.length := by
    intro p; rw [List.map_map]; rfl
  -- the first step
  have s1 : (iota n).mapM (fun p => do
      let A ← rd As p
      let pkg ← rd pkgs p
      trSend A pkg) = .ok ((List.range n).map (sendOf recv S)) := by
    refine mapM_iota _ _ ?_
    intro p hp
    have w := hwf p hp
    rw [hA p hp, ok_bind, hP p hp, ok_bind]
    have := trSend_ok (A := A p) (pkg := P p) (A p).colMap.length (A p).offd.rowsL
      (by rw [← w.offd_cols]; exact w.offd_wf.eq_ofRows) (by rw [← w.offd_cols]; exact w.offd_wf.rows_ok) (first := r0 p)
      (by rw [w.row_starts.eq]; rfl) ((recv p).map Prod.snd) (by rw [hrp p hp]; simp) (hrs p hp)
      (by rw [List.length_flatten, ← hmm, H.sum p hp, hNS p hp])
    rw [this, ← hS p hp, ← hmm]
    rfl
  have hcf : ∀ p < n, (chunks ((recv p).map (fun x => x.2.length)) (S p)).flatten = S p :=
    fun p hp => chunks_flatten _ _ (H.sum p hp)
  have hcl : ∀ p < n, (chunks ((recv p).map (fun x => x.2.length)) (S p)).map List.length = (recv p).map (fun x => x.2.length) :=
    fun p hp => chunks_lengths _ _ (le_of_eq (H.sum p hp))
  -- the sizes
  have s2 : (iota n).mapM (revExchange pkgs (((List.range n).map (sendOf recv S)).map (·.ti)))
      = .ok ((List.range n).map (sizesOf recv send S)) := by
    refine mapM_iota _ _ ?_
    intro q hq
    rw [exchange_ok H pkgs P hP (fun c => c.map (fun r => (r.length : Int))) _ (fun p => [((S p).flatten.length : Int)]) ?_ hrp hsp ?_ ?_ hq]
    · congr 1
      unfold sizesOf got
      rw [List.map_flatten, List.map_map]
      congr 1
      apply List.map_congr_left
      intro x hx
      simp only [Function.comp]
      conv_lhs => rw [← got_snd H hq hx]
      rw [List.map_map]
      rfl
    · intro p hp
      rw [List.map_map, rd_range _ hp]
      simp only [Function.comp, sendOf]
      rw [← List.map_flatten, hcf p hp]
    · intro p hp
      rw [hrs p hp]
      apply ptrs_congr
      rw [← hmm, List.map_map]
      refine (hcl p hp).symm.trans ?_
      apply List.map_congr_left
      intro c _
      simp
    · intro p hp
      rw [hss p hp]
      apply ptrs_congr
      rw [List.map_map, List.map_map]
      apply List.map_congr_left
      intro x hx
      simp only [Function.comp, List.length_map]
      rw [H.length_seg hp hx]
  -- counting
  have hsg : ∀ q < n, (P q).sendStarts = ptrs (got recv send S q) := by
    intro q hq
    rw [hss q hq]
    exact ptrs_congr (got_lengths H hq).symm
  have heg : ∀ q < n, (P q).sendElmts = (got recv send S q).flatten.map Prod.fst := by
    intro q hq
    rw [hel q hq, got_fst H hq]
  have hpg : ∀ q < n, (P q).sendProcs.length = (got recv send S q).length := by
    intro q hq
    rw [hsp q hq]; simp [got]
  have hcg : ∀ q < n, ∀ e ∈ (got recv send S q).flatten, 0 ≤ e.1 ∧ e.1 < ((c1 q - c0 q).toNat : Int) := by
    intro q hq e he
    have h1 : e.1 ∈ (got recv send S q).flatten.map Prod.fst := List.mem_map.mpr ⟨e, he, rfl⟩
    rw [got_fst H hq] at h1
    obtain ⟨l, hl, h2⟩ := List.mem_flatten.mp h1
    obtain ⟨x, hx, rfl⟩ := List.mem_map.mp hl
    have := hcol q hq x hx _ h2
    omega
  have hCc : ∀ q < n, (((c1 q - c0 q).toNat : Nat) : Int) = c1 q - c0 q := by
    intro q hq
    have := (hwf q hq).col_starts.le
    omega
  have s3 : (iota n).mapM (fun p => do
      let A ← rd As p
      let pkg ← rd pkgs p
      let b ← rd ((List.range n).map (sizesOf recv send S)) p
      trCount A.diag.cols pkg b) = .ok ((List.range n).map (fun q => countOf recv send S (c1 q - c0 q).toNat q)) := by
    refine mapM_iota _ _ ?_
    intro q hq
    rw [hA q hq, ok_bind, hP q hq, ok_bind, rd_range _ hq, ok_bind]
    have e1 : (A q).diag.cols = (((c1 q - c0 q).toNat : Nat) : Int) := by rw [(hwf q hq).diag_cols, hCc q hq]
    rw [e1]
    exact trCount_ok _ (P q) (got recv send S q) (hpg q hq) (hsg q hq) (heg q hq) (hcg q hq)
  -- the entries
  have s4 : (iota n).mapM (fun p => do
      let pkg ← rd pkgs p
      let s ← rd ((List.range n).map (sendOf recv S)) p
      let c ← rd ((List.range n).map (fun q => countOf recv send S (c1 q - c0 q).toNat q)) p
      .ok { pkg with recvStarts := s.recvStarts, sendStarts := c.1 })
      = .ok ((List.range n).map (fun p => tmpOf P recv send S (c1 p - c0 p).toNat p)) := by
    refine mapM_iota _ _ ?_
    intro p hp
    rw [hP p hp, ok_bind, rd_range _ hp, ok_bind, rd_range _ hp, ok_bind]
    rfl
  have hent : ∀ {β : Type} (f : Int × R → β) (data : List (List β)),
      (∀ p < n, rd data (p : Int) = .ok ((S p).flatten.map f)) → ∀ q < n,
      revExchange ((List.range n).map (fun p => tmpOf P recv send S (c1 p - c0 p).toNat p)) data (q : Int)
        = .ok ((recvTriples (got recv send S q).flatten).map (fun t => f (t.1, t.2.2))) := by
    intro β f data hD q hq
    rw [exchange_ok H _ (fun p => tmpOf P recv send S (c1 p - c0 p).toNat p) (fun p hp => rd_range _ hp) (fun c => c.flatten.map f) data
      (fun _ => []) ?_ (fun p hp => hrp p hp) (fun p hp => hsp p hp) ?_ ?_ hq]
    · congr 1
      rw [recvTriples_map]
      unfold got
      rw [List.map_flatten (f := Prod.snd), List.flatten_flatten, List.map_flatten (f := f), List.map_map, List.map_map, List.map_map]
      congr 1
      apply List.map_congr_left
      intro x hx
      simp only [Function.comp]
      rw [got_snd H hq hx]
    · intro p hp
      rw [hD p hp]
      congr 1
      conv_lhs => rw [← hcf p hp]
      rw [List.flatten_flatten, List.map_flatten, List.map_map, List.append_nil]
      rfl
    · intro p hp
      simp only [tmpOf, sendOf]
      apply ptrs_congr
      rw [List.map_map, List.map_map]
      apply List.map_congr_left
      intro c _
      simp only [Function.comp, List.length_map]
    · intro p hp
      simp only [tmpOf, countOf]
      apply ptrs_congr
      unfold got
      rw [List.map_map, List.map_map, List.map_map]
      apply List.map_congr_left
      intro x hx
      simp only [Function.comp, List.length_map]
      rw [got_snd H hp hx]
  have s5 : (iota n).mapM (revExchange ((List.range n).map (fun p => tmpOf P recv send S (c1 p - c0 p).toNat p)) (((List.range n).map (sendOf recv S)).map (·.tj)))
      = .ok ((List.range n).map (fun q => (recvTriples (got recv send S q).flatten).map (fun t => t.1))) := by
    refine mapM_iota _ _ ?_
    intro q hq
    refine hent Prod.fst _ ?_ q hq
    intro p hp
    rw [List.map_map, rd_range _ hp]
    rfl
  have s6 : (iota n).mapM (revExchange ((List.range n).map (fun p => tmpOf P recv send S (c1 p - c0 p).toNat p)) (((List.range n).map (sendOf recv S)).map (·.tdata)))
      = .ok ((List.range n).map (fun q => (recvTriples (got recv send S q).flatten).map (fun t => t.2.2))) := by
    refine mapM_iota _ _ ?_
    intro q hq
    refine hent Prod.snd _ ?_ q hq
    intro p hp
    rw [List.map_map, rd_range _ hp]
    rfl
  -- the end
  obtain ⟨Ts, t1, t2, t3⟩ := mapM_exists (iota n) (fun p => (do
      let A ← rd As p
      let pkg ← rd pkgs p
      let bi ← rd ((List.range n).map (sizesOf recv send S)) p
      let bj ← rd ((List.range n).map (fun q => (recvTriples (got recv send S q).flatten).map (fun t => t.1))) p
      let bd ← rd ((List.range n).map (fun q => (recvTriples (got recv send S q).flatten).map (fun t => t.2.2))) p
      let c ← rd ((List.range n).map (fun q => countOf recv send S (c1 q - c0 q).toNat q)) p
      trFinish srt search reorder A pkg bi bj bd c.2 : Res (ParMat R)))
    (fun q M => M.WF (c0 q) (c1 q) cn (r0 q) (r1 q) rn ∧ ∀ i g, 0 ≤ i → i < c1 q - c0 q →
        M.coef i g = (if r0 q ≤ g ∧ g < r1 q then (A q).diag.coef (g - r0 q) i else 0)
          + recvCoef (got recv send S q).flatten i g) (by
      intro q hq
      rw [length_iota] at hq
      obtain ⟨M, m1, m2⟩ := trFinish_ok srt hs search hsearch reorder hre (hwf q hq) (P q) (got recv send S q) (hpg q hq) (hsg q hq)
        (heg q hq) (c1 q - c0 q).toNat (hCc q hq) (hcg q hq) (hout q hq)
      refine ⟨M, ?_, m2⟩
      rw [getElem_iota, hA q hq, ok_bind, hP q hq, ok_bind, rd_range _ hq, ok_bind, rd_range _ hq, ok_bind, rd_range _ hq, ok_bind,
        rd_range _ hq, ok_bind]
      exact m1)
  rw [length_iota] at t2
  refine ⟨Ts, ?_, t2, fun q hq => t3 q (by rw [length_iota]; exact hq)⟩
  unfold parTranspose
  simp only [hlen]
  rw [if_pos hn, s1, ok_bind, s2, ok_bind, s3, ok_bind, s4, ok_bind, s5, ok_bind, s6, ok_bind, t1]

end Par
end Linalg
