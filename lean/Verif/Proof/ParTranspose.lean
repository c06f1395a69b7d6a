import Verif.Model.ParTranspose
import Verif.Proof.ParSplitExt
import Verif.Proof.Transpose
import Verif.Proof.InPlace

/-! # The steps of `ParMatrix::Transpose` -/

namespace Linalg
open Cpp

variable {α β γ σ : Type}

/-- A loop over a range of an array. -/
theorem forUp_seg (a : Nat) (l : List β) (f : Int → σ → Res σ) (g : β → σ → Res σ) (s : σ)
    (h : ∀ (m : Nat) (hm : m < l.length) s, f ((a + m : Nat) : Int) s = g l[m] s) :
    forUp (a : Int) ((a + l.length : Nat) : Int) s f = l.foldlM (fun s x => g x s) s := by
  induction l generalizing a s with
  | nil => rw [forUp_nil (by simp)]; rfl
  | cons x l ih =>
    rw [forUp_cons (by simp only [List.length_cons]; omega), List.foldlM_cons]
    have h0 := h 0 (by simp) s
    simp only [Nat.add_zero, List.getElem_cons_zero] at h0
    rw [h0]
    congr 1
    funext s'
    have e1 : ((a : Int) + 1) = ((a + 1 : Nat) : Int) := by push_cast; rfl
    have e2 : ((a + (x :: l).length : Nat) : Int) = ((a + 1 + l.length : Nat) : Int) := by
      simp only [List.length_cons]; push_cast; omega
    rw [e1, e2]
    apply ih
    intro m hm s
    have := h (m + 1) (by simp only [List.length_cons]; omega) s
    rw [List.getElem_cons_succ] at this
    rw [← this]
    congr 1
    push_cast; omega

/-- The range of a segment. -/
theorem slice_seg (ls : List (List β)) (rest : List β) (k : Nat) (h : k < ls.length) :
    Csr.slice (ls.flatten ++ rest) (((ls.take k).flatten.length : Nat) : Int) (((ls.take k).flatten.length + ls[k].length : Nat) : Int)
      = .ok ls[k] := by
  have hsplit : ls.flatten ++ rest = (ls.take k).flatten ++ (ls[k] ++ ((ls.drop (k + 1)).flatten ++ rest)) := by
    have h1 : ls.flatten = (ls.take k).flatten ++ (ls.drop k).flatten := by rw [← List.flatten_append, List.take_append_drop]
    rw [h1, List.drop_eq_getElem_cons h, List.flatten_cons]
    simp
  unfold Csr.slice
  rw [if_pos ⟨by omega, by omega, by
    rw [hsplit]
    simp only [List.length_append]
    push_cast; omega⟩]
  have e1 : (((ls.take k).flatten.length : Nat) : Int).toNat = (ls.take k).flatten.length := Int.toNat_natCast _
  have e2 : ((((ls.take k).flatten.length + ls[k].length : Nat) : Int) - (((ls.take k).flatten.length : Nat) : Int)).toNat = ls[k].length := by
    omega
  rw [e1, e2, hsplit, List.drop_left, List.take_left]

namespace Par

/-! ## Cutting a list into pieces -/

/-- The pieces of the given lengths. -/
def chunks : List Nat → List β → List (List β)
  | [], _ => []
  | n :: ns, l => l.take n :: chunks ns (l.drop n)

theorem chunks_lengths (ns : List Nat) (l : List β) (h : ns.sum ≤ l.length) : (chunks ns l).map List.length = ns := by
  induction ns generalizing l with
  | nil => rfl
  | cons n ns ih =>
    rw [List.sum_cons] at h
    rw [chunks, List.map_cons, ih (l.drop n) (by rw [List.length_drop]; omega), List.length_take, Nat.min_eq_left (by omega)]

theorem chunks_flatten (ns : List Nat) (l : List β) (h : ns.sum = l.length) : (chunks ns l).flatten = l := by
  induction ns generalizing l with
  | nil => simp at h; rw [eq_comm, List.length_eq_zero_iff] at h; rw [h]; rfl
  | cons n ns ih =>
    rw [List.sum_cons] at h
    rw [chunks, List.flatten_cons, ih (l.drop n) (by rw [List.length_drop]; omega), List.take_append_drop]

@[simp] theorem length_chunks (ns : List Nat) (l : List β) : (chunks ns l).length = ns.length := by
  induction ns generalizing l with
  | nil => rfl
  | cons n ns ih => simp [chunks, ih]

/-! ## The first part -/

/-- Adding a number to all elements of a part of an array. -/
theorem rangeStarts_ok (G : List (List (List β))) (rest : List Int) :
    rangeStarts (ptrs G) (G.flatten.map (fun r => (r.length : Int)) ++ rest) (G.length : Int)
      = .ok (ptrs (G.map List.flatten)) := by
  unfold rangeStarts
  have e : ((G.length : Int) + 1) = ((G.length + 1 : Nat) : Int) := by push_cast; rfl
  rw [e, mkVec_nat, ok_bind]
  have h0 : rd (ptrs G) 0 = .ok 0 := by
    have := rd_ptrs G 0 (by omega)
    simpa using this
  have hwr : wr (List.replicate (G.length + 1) (0 : Int)) 0 0 = .ok (List.replicate (G.length + 1) 0) := by
    rw [show (0 : Int) = ((0 : Nat) : Int) from rfl, wr_nat (by simp)]
    simp [List.replicate_succ]
  rw [h0, ok_bind, hwr, ok_bind]
  obtain ⟨rs, h1, h2, h3⟩ := forUp_inv_nat (n := G.length) (f := fun i rs => (do
      let x ← rd rs i
      let rs ← wr rs (i + 1) x
      let lo ← rd (ptrs G) i
      let hi ← rd (ptrs G) (i + 1)
      forUp lo hi rs (fun j rs => do
        let x ← rd rs (i + 1)
        let s ← rd (G.flatten.map (fun r => (r.length : Int)) ++ rest) j
        wr rs (i + 1) (x + s)) : Res (List Int)))
    (fun i (rs : List Int) => rs.length = G.length + 1 ∧ ∀ k ≤ i, rs[k]? = some ((((G.map List.flatten).take k).flatten.length : Nat) : Int))
    (s := List.replicate (G.length + 1) 0)
    ⟨by simp, by
      intro k hk
      have : k = 0 := by omega
      subst this
      simp⟩
    (by
      rintro i rs hi ⟨hl, hrs⟩
      have hx := hrs i (le_refl _)
      rw [rd_nat (by omega), ok_bind]
      have hx' : rs[i] = ((((G.map List.flatten).take i).flatten.length : Nat) : Int) := by
        rw [List.getElem?_eq_getElem (by omega)] at hx
        exact Option.some.inj hx
      rw [hx', show ((i : Int) + 1) = ((i + 1 : Nat) : Int) by push_cast; rfl, wr_nat (by omega), ok_bind,
        rd_ptrs G i (by omega), ok_bind]
      have hs := rd_ptrs_succ G i hi
      rw [show ((i : Int) + 1) = ((i + 1 : Nat) : Int) by push_cast; rfl] at hs
      rw [hs, ok_bind]
      rw [forUp_seg (G.take i).flatten.length G[i] _ (fun r rs => do
        let x ← rd rs ((i + 1 : Nat) : Int)
        wr rs ((i + 1 : Nat) : Int) (x + (r.length : Int)))]
      · obtain ⟨t, t1, t2, t3, t4⟩ := foldlM_inv (l := G[i]) (f := fun rs (r : List β) => (do
            let x ← rd rs ((i + 1 : Nat) : Int)
            wr rs ((i + 1 : Nat) : Int) (x + (r.length : Int)) : Res (List Int)))
          (fun pre (rs' : List Int) => rs'.length = G.length + 1 ∧ (∀ k ≤ i, rs'[k]? = rs[k]?) ∧
            rs'[i + 1]? = some ((((G.map List.flatten).take i).flatten.length + pre.flatten.length : Nat) : Int))
          (s := rs.set (i + 1) ((((G.map List.flatten).take i).flatten.length : Nat) : Int))
          ⟨by simp [hl], by
            intro k hk
            rw [List.getElem?_set_ne (by omega)], by
            rw [List.getElem?_set_self (by omega)]; simp⟩
          (by
            rintro pre r post rs' hsp ⟨q1, q2, q3⟩
            have hlt : i + 1 < rs'.length := by omega
            rw [rd_nat hlt, ok_bind]
            rw [List.getElem?_eq_getElem hlt] at q3
            rw [Option.some.inj q3, wr_nat hlt]
            refine ⟨_, rfl, by simp [q1], ?_, ?_⟩
            · intro k hk
              rw [List.getElem?_set_ne (by omega), q2 k hk]
            · rw [List.getElem?_set_self hlt, List.flatten_append, List.length_append]
              simp only [List.flatten_cons, List.flatten_nil, List.append_nil]
              push_cast
              rw [add_assoc])
        rw [t1]
        refine ⟨t, rfl, t2, ?_⟩
        intro k hk
        rcases Nat.lt_or_ge k (i + 1) with h' | h'
        · rw [t3 k (by omega), hrs k (by omega)]
        · have : k = i + 1 := by omega
          subst this
          rw [t4]
          have := take_succ_flatten_length (G.map List.flatten) i (by simpa using hi)
          rw [this, List.getElem_map]
      · intro m hm s
        have hidx : (G.take i).flatten.length + m < G.flatten.length := by
          have hh : G.flatten = (G.take i).flatten ++ (G.drop i).flatten := by rw [← List.flatten_append, List.take_append_drop]
          rw [hh, List.drop_eq_getElem_cons hi, List.flatten_cons, List.length_append, List.length_append]
          omega
        have hrd : rd (G.flatten.map (fun r => (r.length : Int)) ++ rest) (((G.take i).flatten.length + m : Nat) : Int)
            = .ok ((G[i][m].length : Int)) := by
          rw [rd_nat (by rw [List.length_append, List.length_map]; omega)]
          rw [List.getElem_append_left (by rw [List.length_map]; omega), List.getElem_map]
          congr 3
          have hh : G.flatten = (G.take i).flatten ++ (G[i] ++ (G.drop (i + 1)).flatten) := by
            rw [← List.flatten_cons, ← List.drop_eq_getElem_cons hi, ← List.flatten_append, List.take_append_drop]
          rw [List.getElem_of_eq hh, List.getElem_append_right (by omega), List.getElem_append_left (by omega)]
          congr 1
          omega
        rw [hrd]
        rfl)
  rw [h1]
  congr 1
  apply List.ext_getElem?
  intro k
  by_cases hk : k ≤ G.length
  · rw [h3 k hk, List.getElem?_eq_getElem (by simp; omega), getElem_ptrs]
  · rw [List.getElem?_eq_none (by omega), List.getElem?_eq_none (by simp; omega)]

/-- Row sizes instead of row pointers. -/
theorem diff_ok (rs : List (List β)) :
    forUp 0 (rs.length : Int) (ptrs rs) (fun i ti => do
      let x ← rd ti (i + 1)
      let y ← rd ti i
      wr ti i (x - y)) = .ok (rs.map (fun r => (r.length : Int)) ++ [(rs.flatten.length : Int)]) := by
  obtain ⟨t, h1, h2, h3, h4⟩ := forUp_inv_nat (n := rs.length) (f := fun i ti => (do
      let x ← rd ti (i + 1)
      let y ← rd ti i
      wr ti i (x - y) : Res (List Int)))
    (fun i (ti : List Int) => ti.length = rs.length + 1 ∧ (∀ (k : Nat) (hk : k < rs.length), k < i → ti[k]? = some (rs[k].length : Int)) ∧
      ∀ k, i ≤ k → ti[k]? = (ptrs rs)[k]?)
    (s := ptrs rs) ⟨by simp, by intro k _ h; omega, fun k _ => rfl⟩
    (by
      rintro i ti hi ⟨q1, q2, q3⟩
      have a1 := q3 i (le_refl _)
      have a2 := q3 (i + 1) (by omega)
      rw [List.getElem?_eq_getElem (by omega), List.getElem?_eq_getElem (by simp; omega)] at a1 a2
      have b1 := Option.some.inj a1
      have b2 := Option.some.inj a2
      rw [getElem_ptrs] at b1 b2
      rw [show ((i : Int) + 1) = ((i + 1 : Nat) : Int) by push_cast; rfl, rd_nat (by omega), ok_bind, rd_nat (by omega), ok_bind, wr_nat (by omega)]
      refine ⟨_, rfl, by simp [q1], ?_, ?_⟩
      · intro k hk hki
        by_cases he : k = i
        · subst he
          rw [List.getElem?_set_self (by omega), b1, b2, take_succ_flatten_length rs k hk]
          congr 1
          push_cast; omega
        · rw [List.getElem?_set_ne (by omega), q2 k hk (by omega)]
      · intro k hk
        rw [List.getElem?_set_ne (by omega), q3 k (by omega)])
  rw [h1]
  congr 1
  apply List.ext_getElem?
  intro k
  rcases Nat.lt_trichotomy k rs.length with hk | hk | hk
  · rw [h3 k hk hk, List.getElem?_append_left (by simpa using hk)]
    simp [hk]
  · rw [h4 k (by omega), List.getElem?_eq_getElem (by simp; omega), getElem_ptrs, List.getElem?_append_right (by simp; omega)]
    subst hk
    simp
  · rw [List.getElem?_eq_none (by omega), List.getElem?_eq_none (by simp; omega)]

/-- The rows of the transposed off-process block, with global numbers. -/
def sentRows (first : Int) (rs : List (List (Int × α))) (N : Nat) : List (List (Int × α)) :=
  mapCols (fun i => i + first) (trRows (triplesL rs) N)

theorem length_sentRows (first : Int) (rs : List (List (Int × α))) (N : Nat) : (sentRows first rs N).length = N := by
  simp [sentRows, mapCols]

theorem trSend_ok [Zero α] {A : ParMat α} {pkg : CommPkg} (N : Nat) (rs : List (List (Int × α)))
    (hA : A.offd = Csr.ofRows (N : Int) rs) (hr : ∀ r ∈ rs, ∀ e ∈ r, 0 ≤ e.1 ∧ e.1 < (N : Int)) {first : Int}
    (hf : rd A.rowStarts 0 = .ok first) (L : List (List Int)) (hp : pkg.recvProcs.length = L.length) (hs : pkg.recvStarts = ptrs L)
    (hL : L.flatten.length = N) :
    trSend A pkg = .ok ⟨(sentRows first rs N).map (fun r => (r.length : Int)) ++ [((sentRows first rs N).flatten.length : Int)],
      (sentRows first rs N).flatten.map Prod.fst, (sentRows first rs N).flatten.map Prod.snd,
      ptrs ((chunks (L.map List.length) (sentRows first rs N)).map List.flatten)⟩ := by
  unfold trSend
  rw [hA, transpose_ofRows N rs hr, ok_bind, hf, ok_bind]
  have hlen : (trRows (triplesL rs) N).length = N := length_trRows _ _
  have e1 : (Csr.ofRows (N : Int) rs).cols = ((trRows (triplesL rs) N).length : Int) := by rw [hlen]; rfl
  have e2 : (Csr.ofRows (rs.length : Int) (trRows (triplesL rs) N)).indptr = ptrs (trRows (triplesL rs) N) := rfl
  have e3 : (Csr.ofRows (rs.length : Int) (trRows (triplesL rs) N)).indices = (trRows (triplesL rs) N).flatten.map Prod.fst := rfl
  have e4 : (Csr.ofRows (rs.length : Int) (trRows (triplesL rs) N)).data = (trRows (triplesL rs) N).flatten.map Prod.snd := rfl
  rw [e1, e2, e3, e4, rd_ptrs _ _ (le_refl _), ok_bind]
  have hm := mapLoop (fun x => x + first) [] ((trRows (triplesL rs) N).flatten.map Prod.fst) []
  simp only [List.length_nil, List.nil_append, List.append_nil, Nat.zero_add, Nat.cast_zero, List.length_map] at hm
  rw [List.take_length, hm, ok_bind, diff_ok, ok_bind, hp, hs]
  have hsum : (L.map List.length).sum = (sentRows first rs N).length := by rw [length_sentRows, ← hL, List.length_flatten]
  have hptr : ptrs L = ptrs (chunks (L.map List.length) (sentRows first rs N)) :=
    ptrs_congr (by rw [chunks_lengths _ _ (by omega)])
  have hti : (trRows (triplesL rs) N).map (fun r => (r.length : Int))
      = (chunks (L.map List.length) (sentRows first rs N)).flatten.map (fun r => (r.length : Int)) := by
    rw [chunks_flatten _ _ hsum]
    simp [sentRows, mapCols, Function.comp_def]
  have hfl : (sentRows first rs N).flatten.length = (trRows (triplesL rs) N).flatten.length := by
    simp [sentRows, mapCols, Function.comp_def]
  have hgl : (L.length : Int) = ((chunks (L.map List.length) (sentRows first rs N)).length : Int) := by simp
  rw [hptr, hgl, hti, rangeStarts_ok, ok_bind, chunks_flatten _ _ hsum, hfl]
  congr 2
  · simp [sentRows, mapCols, List.map_flatten, Function.comp_def]
  · simp [sentRows, mapCols, List.map_flatten, Function.comp_def]

/-! ## The exchange -/

theorem message_ok (pkg : CommPkg) (ls : List (List β)) (rest : List β) (q : Int) (i : Nat) (hi : i < ls.length)
    (hq : pkg.recvProcs.idxOf q = i) (hs : pkg.recvStarts = ptrs ls) : message pkg (ls.flatten ++ rest) q = .ok ls[i] := by
  unfold message
  simp only
  rw [hq, hs, rd_ptrs ls i hi.le, ok_bind, rd_ptrs_succ ls i hi, ok_bind, slice_seg ls rest i hi]

theorem revExchange_ok {pkgs : List CommPkg} {data : List (List β)} {q : Int} {pkg : CommPkg} (hpk : rd pkgs q = .ok pkg)
    (msgs : List (List β)) (hlen : pkg.sendProcs.length = msgs.length) (hst : pkg.sendStarts = ptrs msgs)
    (hm : ∀ (j : Nat) (h : j < msgs.length), ∃ p pk d, rd pkg.sendProcs (j : Int) = .ok p ∧ rd pkgs p = .ok pk ∧ rd data p = .ok d ∧
      message pk d q = .ok msgs[j]) : revExchange pkgs data q = .ok msgs.flatten := by
  unfold revExchange
  rw [hpk, ok_bind, hlen]
  obtain ⟨t, h1, h2⟩ := forUp_inv_nat (n := msgs.length) (f := fun j buf => (do
    let p ← rd pkg.sendProcs j
    let pk ← rd pkgs p
    let d ← rd data p
    let msg ← message pk d q
    let lo ← rd pkg.sendStarts j
    let hi ← rd pkg.sendStarts (j + 1)
    if (msg.length : Int) = hi - lo then .ok (buf ++ msg) else .error .undefinedBehaviour : Res (List β)))
    (fun i buf => buf = (msgs.take i).flatten) (s := []) (by simp)
    (by
      rintro i buf hi rfl
      obtain ⟨p, pk, d, a1, a2, a3, a4⟩ := hm i hi
      rw [a1, ok_bind, a2, ok_bind, a3, ok_bind, a4, ok_bind, hst, rd_ptrs msgs i hi.le, ok_bind, rd_ptrs_succ msgs i hi, ok_bind,
        if_pos (by push_cast; omega)]
      refine ⟨_, rfl, ?_⟩
      rw [List.take_succ_eq_append_getElem hi, List.flatten_append]
      simp)
  rw [h1, h2, List.take_length]

/-! ## Counting and storing the received entries -/

/-- The entries received for one element of the send list, as (column, row, value). -/
def rowTriples (e : Int × List (Int × α)) : List (Int × Int × α) := e.2.map (fun x => (x.1, e.1, x.2))

/-- All received entries. -/
def recvTriples (E : List (Int × List (Int × α))) : List (Int × Int × α) := E.flatMap rowTriples

theorem recvTriples_append (E F : List (Int × List (Int × α))) : recvTriples (E ++ F) = recvTriples E ++ recvTriples F := by
  simp [recvTriples]

theorem recvTriples_ok {C : Nat} {E : List (Int × List (Int × α))} (h : ∀ e ∈ E, 0 ≤ e.1 ∧ e.1 < (C : Int)) :
    ∀ t ∈ recvTriples E, 0 ≤ t.2.1 ∧ t.2.1 < (C : Int) := by
  intro t ht
  obtain ⟨e, he, ht⟩ := List.mem_flatMap.mp ht
  obtain ⟨x, hx, rfl⟩ := List.mem_map.mp ht
  exact h e he

theorem bucket_rowTriples (e : Int × List (Int × α)) (c : Int) : bucket (rowTriples e) c = if e.1 = c then e.2 else [] := by
  unfold bucket rowTriples
  by_cases h : e.1 = c
  · simp [h, List.filter_map, Function.comp_def]
  · simp [h, List.filter_map, Function.comp_def]

theorem getElem_seg (G : List (List β)) (i : Nat) (hi : i < G.length) (m : Nat) (hm : m < G[i].length) :
    ∃ h : (G.take i).flatten.length + m < G.flatten.length, G.flatten[(G.take i).flatten.length + m] = G[i][m] := by
  have hh : G.flatten = (G.take i).flatten ++ (G[i] ++ (G.drop (i + 1)).flatten) := by
    rw [← List.flatten_cons, ← List.drop_eq_getElem_cons hi, ← List.flatten_append, List.take_append_drop]
  have hlt : (G.take i).flatten.length + m < G.flatten.length := by
    rw [hh, List.length_append, List.length_append]; omega
  refine ⟨hlt, ?_⟩
  rw [List.getElem_of_eq hh, List.getElem_append_right (by omega), List.getElem_append_left (by omega)]
  congr 1
  omega

theorem rd_seg (G : List (List β)) (f : β → γ) (i : Nat) (hi : i < G.length) (m : Nat) (hm : m < G[i].length) :
    rd (G.flatten.map f) (((G.take i).flatten.length + m : Nat) : Int) = .ok (f G[i][m]) := by
  obtain ⟨h1, h2⟩ := getElem_seg G i hi m hm
  rw [rd_nat (by rw [List.length_map]; exact h1), List.getElem_map, h2]

theorem trCount_ok (C : Nat) (pkg : CommPkg) (G : List (List (Int × List (Int × α)))) (hp : pkg.sendProcs.length = G.length)
    (hs : pkg.sendStarts = ptrs G) (he : pkg.sendElmts = G.flatten.map Prod.fst)
    (hr : ∀ e ∈ G.flatten, 0 ≤ e.1 ∧ e.1 < (C : Int)) :
    trCount (C : Int) pkg (G.flatten.map (fun e => (e.2.length : Int)))
      = .ok (ptrs (G.map (fun g => (g.map Prod.snd).flatten)), ptrs (trRows (recvTriples G.flatten) C)) := by
  unfold trCount
  have e1 : ((C : Int) + 1) = ((C + 1 : Nat) : Int) := by push_cast; rfl
  have e2 : ((G.length : Int) + 1) = ((G.length + 1 : Nat) : Int) := by push_cast; rfl
  rw [hp, hs, he, e1, mkVec_nat, ok_bind, e2, mkVec_nat, ok_bind]
  have h0 : rd (ptrs G) 0 = .ok 0 := by
    have := rd_ptrs G 0 (by omega)
    simpa using this
  have hwr : wr (List.replicate (G.length + 1) (0 : Int)) 0 0 = .ok (List.replicate (G.length + 1) 0) := by
    rw [show (0 : Int) = ((0 : Nat) : Int) from rfl, wr_nat (by simp)]
    simp [List.replicate_succ]
  rw [h0, ok_bind, hwr, ok_bind]
  obtain ⟨⟨ss, oi⟩, h1, h2, h3, h4, h5, h6⟩ := forUp_inv_nat (n := G.length) (f := fun i (st : List Int × List Int) => (do
      let x ← rd st.1 i
      let ss ← wr st.1 (i + 1) x
      let lo ← rd (ptrs G) i
      let hi ← rd (ptrs G) (i + 1)
      forUp lo hi (ss, st.2) (fun j st => do
        let x ← rd st.1 (i + 1)
        let b ← rd (G.flatten.map (fun e => (e.2.length : Int))) j
        let ss ← wr st.1 (i + 1) (x + b)
        let e ← rd (G.flatten.map Prod.fst) j
        let y ← rd st.2 (e + 1)
        let oi ← wr st.2 (e + 1) (y + b)
        .ok (ss, oi)) : Res (List Int × List Int)))
    (fun i (st : List Int × List Int) => st.1.length = G.length + 1 ∧
      (∀ k ≤ i, st.1[k]? = some ((((G.map (fun g => (g.map Prod.snd).flatten)).take k).flatten.length : Nat) : Int)) ∧
      st.2.length = C + 1 ∧ st.2[0]? = some 0 ∧
      ∀ c < C, st.2[c + 1]? = some (((bucket (recvTriples (G.take i).flatten) (c : Int)).length : Nat) : Int))
    (s := (List.replicate (G.length + 1) 0, List.replicate (C + 1) 0))
    ⟨by simp, by
      intro k hk
      have : k = 0 := by omega
      subst this
      simp, by simp, by simp, by
      intro c hc
      simp [recvTriples, bucket, hc]⟩
    (by
      rintro i ⟨ss, oi⟩ hi ⟨q1, q2, q3, q4, q5⟩
      simp only at q1 q2 q3 q4 q5
      have hx := q2 i (le_refl _)
      simp only
      rw [rd_nat (by omega), ok_bind]
      rw [List.getElem?_eq_getElem (by omega)] at hx
      rw [Option.some.inj hx, show ((i : Int) + 1) = ((i + 1 : Nat) : Int) by push_cast; rfl, wr_nat (by omega), ok_bind,
        rd_ptrs G i (by omega), ok_bind]
      have hsu := rd_ptrs_succ G i hi
      rw [show ((i : Int) + 1) = ((i + 1 : Nat) : Int) by push_cast; rfl] at hsu
      rw [hsu, ok_bind]
      rw [forUp_seg (G.take i).flatten.length G[i] _ (fun e (st : List Int × List Int) => (do
        let x ← rd st.1 ((i + 1 : Nat) : Int)
        let ss ← wr st.1 ((i + 1 : Nat) : Int) (x + (e.2.length : Int))
        let y ← rd st.2 (e.1 + 1)
        let oi ← wr st.2 (e.1 + 1) (y + (e.2.length : Int))
        .ok (ss, oi) : Res (List Int × List Int)))]
      · obtain ⟨⟨ss', oi'⟩, t1, t2, t3, t4, t5, t6, t7⟩ := foldlM_inv (l := G[i]) (f := fun (st : List Int × List Int) e => (do
            let x ← rd st.1 ((i + 1 : Nat) : Int)
            let ss ← wr st.1 ((i + 1 : Nat) : Int) (x + (e.2.length : Int))
            let y ← rd st.2 (e.1 + 1)
            let oi ← wr st.2 (e.1 + 1) (y + (e.2.length : Int))
            .ok (ss, oi) : Res (List Int × List Int)))
          (fun pre (st : List Int × List Int) => st.1.length = G.length + 1 ∧ (∀ k ≤ i, st.1[k]? = ss[k]?) ∧
            st.1[i + 1]? = some ((((G.map (fun g => (g.map Prod.snd).flatten)).take i).flatten.length + (pre.map Prod.snd).flatten.length : Nat) : Int) ∧
            st.2.length = C + 1 ∧ st.2[0]? = some 0 ∧
            ∀ c < C, st.2[c + 1]? = some (((bucket (recvTriples ((G.take i).flatten ++ pre)) (c : Int)).length : Nat) : Int))
          (s := (ss.set (i + 1) ((((G.map (fun g => (g.map Prod.snd).flatten)).take i).flatten.length : Nat) : Int), oi))
          ⟨by simp [q1], by
            intro k hk
            simp only
            rw [List.getElem?_set_ne (by omega)], by
            simp only
            rw [List.getElem?_set_self (by omega)]; simp, q3, q4, by
            intro c hc
            rw [List.append_nil]
            exact q5 c hc⟩
          (by
            rintro pre e post ⟨ss', oi'⟩ hsp ⟨p1, p2, p3, p4, p5, p6⟩
            simp only at p1 p2 p3 p4 p5 p6
            have hlt : i + 1 < ss'.length := by omega
            have hmem : e ∈ G.flatten := List.mem_flatten.mpr ⟨G[i], List.getElem_mem hi, by rw [hsp]; simp⟩
            obtain ⟨b1, b2⟩ := hr e hmem
            obtain ⟨c, hc⟩ : ∃ c : Nat, e.1 = (c : Int) := ⟨e.1.toNat, by omega⟩
            have hcC : c < C := by omega
            simp only
            rw [rd_nat hlt, ok_bind]
            rw [List.getElem?_eq_getElem hlt] at p3
            rw [Option.some.inj p3, wr_nat hlt, ok_bind]
            have p6c := p6 c hcC
            have hlt2 : c + 1 < oi'.length := by omega
            rw [List.getElem?_eq_getElem hlt2] at p6c
            rw [show e.1 + 1 = ((c + 1 : Nat) : Int) by rw [hc]; push_cast; rfl, rd_nat hlt2, ok_bind, Option.some.inj p6c, wr_nat hlt2, ok_bind]
            refine ⟨_, rfl, by simp [p1], ?_, ?_, by simp [p4], ?_, ?_⟩
            · intro k hk
              simp only
              rw [List.getElem?_set_ne (by omega), p2 k hk]
            · simp only
              rw [List.getElem?_set_self hlt, List.map_append, List.flatten_append, List.length_append]
              simp only [List.map_cons, List.map_nil, List.flatten_cons, List.flatten_nil, List.append_nil]
              push_cast
              rw [add_assoc]
            · simp only
              rw [List.getElem?_set_ne (by omega), p5]
            · intro c' hc'
              simp only
              have hR : bucket (recvTriples ((G.take i).flatten ++ (pre ++ [e]))) (c' : Int)
                  = bucket (recvTriples ((G.take i).flatten ++ pre)) (c' : Int) ++ if e.1 = (c' : Int) then e.2 else [] := by
                rw [← List.append_assoc, recvTriples_append, bucket_append, ← bucket_rowTriples]
                simp [recvTriples]
              rw [hR, List.length_append, hc]
              by_cases hcc : c = c'
              · subst hcc
                rw [List.getElem?_set_self hlt2, if_pos rfl]
                congr 1
              · rw [List.getElem?_set_ne (by omega), p6 c' hc', if_neg (by omega)]
                simp)
        rw [t1]
        refine ⟨_, rfl, t2, ?_, t5, t6, ?_⟩
        · intro k hk
          rcases Nat.lt_or_ge k (i + 1) with h' | h'
          · simp only
            simp only at t3
            rw [t3 k (by omega), q2 k (by omega)]
          · have : k = i + 1 := by omega
            subst this
            simp only
            simp only at t4
            rw [t4]
            have := take_succ_flatten_length (G.map (fun g => (g.map Prod.snd).flatten)) i (by simpa using hi)
            rw [this, List.getElem_map]
        · intro c hc
          have := t7 c hc
          simp only at this ⊢
          rw [this, List.take_succ_eq_append_getElem hi, List.flatten_append]
          simp
      · intro m hm s
        rw [rd_seg G _ i hi m hm, rd_seg G _ i hi m hm]
        simp only [ok_bind])
  rw [h1, ok_bind]
  simp only at h2 h3 h4 h5 h6 ⊢
  have hlen : (trRows (recvTriples G.flatten) C).length = C := length_trRows _ _
  have hpp := prefix_pass (trRows (recvTriples G.flatten) C) oi (by rw [hlen]; exact h4) h5 (by
    intro c hc
    rw [getElem_trRows, h6 c (by rw [hlen] at hc; exact hc), List.take_length])
  rw [hlen] at hpp
  rw [hpp, ok_bind]
  congr 2
  apply List.ext_getElem?
  intro k
  by_cases hk : k ≤ G.length
  · rw [h3 k hk, List.getElem?_eq_getElem (by simp; omega), getElem_ptrs]
  · rw [List.getElem?_eq_none (by omega), List.getElem?_eq_none (by simp; omega)]

theorem forUp_const (n : Nat) (s : σ) (f : σ → Res σ) : forUp (0 + 1) ((n : Int) + 1) s (fun _ => f) = forUp 0 (n : Int) s (fun _ => f) := by
  have key : ∀ (n : Nat) (a b : Int) (s : σ), forUp a (a + n) s (fun _ => f) = forUp b (b + n) s (fun _ => f) := by
    intro n
    induction n with
    | zero => intro a b s; rw [forUp_nil (by simp), forUp_nil (by simp)]
    | succ n ih =>
      intro a b s
      rw [forUp_cons (by push_cast; omega), forUp_cons (by push_cast; omega)]
      congr 1
      funext s'
      have := ih (a + 1) (b + 1) s'
      push_cast
      rw [show a + 1 + (n : Int) = a + ((n : Int) + 1) by omega, show b + 1 + (n : Int) = b + ((n : Int) + 1) by omega] at this
      exact this
  have := key n 1 0 s
  rw [show (1 : Int) + n = (n : Int) + 1 by omega, zero_add] at this
  exact this

/-- The entries of one element of the send list: the position is kept in a local variable and written back afterwards. -/
theorem storeRow (T : List (Int × Int × α)) (p : List Int) (ix : List Int) (dt : List α) (row : Int) (pre : List (Int × Int × α))
    (es : List (Int × α)) (post : List (Int × Int × α)) (hT : T = pre ++ (es.map (fun x => (x.1, row, x.2)) ++ post))
    {p' ix' : List Int} {dt' : List α}
    (h : (es.map (fun x => (x.1, row, x.2))).foldlM (fun (out : List Int × List Int × List α) t => (do
        let k ← rd out.1 t.2.1
        let ix ← wr out.2.1 k t.1
        let dt ← wr out.2.2 k t.2.2
        let p ← wr out.1 t.2.1 (k + 1)
        .ok (p, ix, dt) : Res (List Int × List Int × List α))) (p, ix, dt) = .ok (p', ix', dt'))
    {index : Int} (hidx : rd p row = .ok index) (oi : List Int) :
    ∃ index', forUp 0 (es.length : Int) (index, TrFill.mk oi ix dt (pre.length : Int)) (fun _ r => do
        let d ← rd (T.map (fun t => t.2.2)) r.2.counter
        let od ← wr r.2.od r.1 d
        let c ← rd (T.map (fun t => t.1)) r.2.counter
        let oj ← wr r.2.oj r.1 c
        .ok (r.1 + 1, { r.2 with od := od, oj := oj, counter := r.2.counter + 1 }))
      = .ok (index', TrFill.mk oi ix' dt' ((pre.length + es.length : Nat) : Int)) ∧ wr p row index' = .ok p' ∧ rd p' row = .ok index' := by
  induction es generalizing p ix dt pre index with
  | nil =>
    simp only [List.map_nil, List.foldlM_nil] at h
    have h' : (p, ix, dt) = (p', ix', dt') := Except.ok.inj h
    simp only [Prod.mk.injEq] at h'
    obtain ⟨rfl, rfl, rfl⟩ := h'
    refine ⟨index, by rw [List.length_nil, Nat.cast_zero, forUp_nil (le_refl _)]; simp, ?_, hidx⟩
    obtain ⟨h0, h1⟩ := rd_eq_ok.mp hidx
    have hlt : row.toNat < p.length := by
      by_contra hc
      rw [List.getElem?_eq_none (by omega)] at h1
      cases h1
    rw [wr_int h0 (by omega)]
    congr 1
    apply List.ext_getElem?
    intro k
    rw [List.getElem?_set]
    split
    · rename_i hk
      subst hk
      rw [h1]
    · rfl
  | cons x es ih =>
    simp only [List.map_cons, List.foldlM_cons] at h
    obtain ⟨⟨p1, ix1, dt1⟩, a1, a2⟩ := bind_eq_ok.mp h
    rw [hidx, ok_bind] at a1
    obtain ⟨ix2, b1, a1⟩ := bind_eq_ok.mp a1
    obtain ⟨dt2, b2, a1⟩ := bind_eq_ok.mp a1
    obtain ⟨p2, b3, a1⟩ := bind_eq_ok.mp a1
    have a1' := Except.ok.inj a1
    simp only [Prod.mk.injEq] at a1'
    obtain ⟨rfl, rfl, rfl⟩ := a1'
    obtain ⟨h0, h1⟩ := rd_eq_ok.mp hidx
    have hlt : row.toNat < p.length := by
      by_contra hc
      rw [List.getElem?_eq_none (by omega)] at h1
      cases h1
    rw [wr_int h0 (by omega)] at b3
    have b3' := Except.ok.inj b3
    subst b3'
    obtain ⟨index', c1, c2, c3⟩ := ih (p.set row.toNat (index + 1)) ix2 dt2 (pre ++ [(x.1, row, x.2)]) (by rw [hT]; simp) a2
      (index := index + 1) (by rw [rd_int h0 (by simp; omega)]; simp)
    refine ⟨index', ?_, ?_, c3⟩
    · rw [List.length_cons, Nat.cast_succ, forUp_cons (by omega)]
      have r1 : rd (T.map (fun t => t.2.2)) (pre.length : Int) = .ok x.2 := by
        rw [hT, List.map_append, List.map_append, List.map_cons, List.map_cons, List.cons_append]
        rw [rd_at (by simp)]
      have r2 : rd (T.map (fun t => t.1)) (pre.length : Int) = .ok x.1 := by
        rw [hT, List.map_append, List.map_append, List.map_cons, List.map_cons, List.cons_append]
        rw [rd_at (by simp)]
      simp only
      rw [r1, ok_bind, b2, ok_bind, r2, ok_bind, b1, ok_bind, ok_bind]
      have e1 : ((pre.length : Int) + 1) = (((pre ++ [(x.1, row, x.2)]).length : Nat) : Int) := by simp
      have e2 : ((pre ++ [(x.1, row, x.2)]).length + es.length : Nat) = pre.length + (es.length + 1) := by simp; omega
      rw [e1]
      rw [e2] at c1
      exact (forUp_const es.length _ _).trans c1
    · rw [wr_int h0 (by simp; omega), List.set_set] at c2
      rw [wr_int h0 (by omega)]
      exact c2

theorem wr_length {v w : List β} {i : Int} {x : β} (h : wr v i x = .ok w) : w.length = v.length := by
  unfold wr at h
  split at h
  · rw [← Except.ok.inj h]; simp
  · cases h

theorem take_succ_flatten' {β : Type} (G : List (List β)) {i : Nat} (hi : i < G.length) :
    (G.take (i + 1)).flatten = (G.take i).flatten ++ G[i] := by
  rw [List.take_succ_eq_append_getElem hi, List.flatten_append]
  simp

theorem trFill_ok [Zero α] (C : Nat) (pkg : CommPkg) (G : List (List (Int × List (Int × α)))) (hp : pkg.sendProcs.length = G.length)
    (hs : pkg.sendStarts = ptrs G) (he : pkg.sendElmts = G.flatten.map Prod.fst)
    (hr : ∀ e ∈ G.flatten, 0 ≤ e.1 ∧ e.1 < (C : Int)) :
    trFill (C : Int) pkg (G.flatten.map (fun e => (e.2.length : Int))) ((recvTriples G.flatten).map (fun t => t.1))
        ((recvTriples G.flatten).map (fun t => t.2.2)) (ptrs (trRows (recvTriples G.flatten) C))
      = .ok ⟨ptrs (trRows (recvTriples G.flatten) C), (trRows (recvTriples G.flatten) C).flatten.map Prod.fst,
          (trRows (recvTriples G.flatten) C).flatten.map Prod.snd, ((recvTriples G.flatten).length : Int)⟩ := by
  have hT := recvTriples_ok hr
  have hfl := trRows_flatten_length' (recvTriples G.flatten) C hT
  obtain ⟨pf, s1, s2, s3⟩ := scatter_pass (recvTriples G.flatten) C hT (List.replicate (recvTriples G.flatten).length 0)
    (List.replicate (recvTriples G.flatten).length (0 : α)) (by simp) (by simp)
  unfold trFill
  have hnnz := rd_ptrs (trRows (recvTriples G.flatten) C) C (by simp)
  rw [List.take_of_length_le (by simp), hfl] at hnnz
  rw [hnnz, ok_bind, mkVec_nat, ok_bind, mkVec_nat, ok_bind, hp, hs, he]
  obtain ⟨st, h1, p, ix, dt, h2, h3, h4⟩ := forUp_inv_nat (n := G.length) (f := fun i (st : TrFill α) => (do
      let lo ← rd (ptrs G) i
      let hi ← rd (ptrs G) (i + 1)
      forUp lo hi st (fun j st => do
        let row ← rd (G.flatten.map Prod.fst) j
        let index ← rd st.oi row
        let n ← rd (G.flatten.map (fun e => (e.2.length : Int))) j
        let r ← forUp 0 n (index, st) (fun _ r => do
          let d ← rd ((recvTriples G.flatten).map (fun t => t.2.2)) r.2.counter
          let od ← wr r.2.od r.1 d
          let c ← rd ((recvTriples G.flatten).map (fun t => t.1)) r.2.counter
          let oj ← wr r.2.oj r.1 c
          .ok (r.1 + 1, { r.2 with od := od, oj := oj, counter := r.2.counter + 1 }))
        let oi ← wr r.2.oi row r.1
        .ok { r.2 with oi := oi }) : Res (TrFill α)))
    (fun i (st : TrFill α) => ∃ p ix dt, (recvTriples (G.take i).flatten).foldlM (fun (out : List Int × List Int × List α) t => (do
        let k ← rd out.1 t.2.1
        let ix ← wr out.2.1 k t.1
        let dt ← wr out.2.2 k t.2.2
        let p ← wr out.1 t.2.1 (k + 1)
        .ok (p, ix, dt) : Res (List Int × List Int × List α))) (ptrs (trRows (recvTriples G.flatten) C),
          List.replicate (recvTriples G.flatten).length 0, List.replicate (recvTriples G.flatten).length 0) = .ok (p, ix, dt) ∧
      p.length = C + 1 ∧ st = ⟨p, ix, dt, ((recvTriples (G.take i).flatten).length : Int)⟩)
    (s := TrFill.mk (ptrs (trRows (recvTriples G.flatten) C)) (List.replicate (recvTriples G.flatten).length 0)
      (List.replicate (recvTriples G.flatten).length 0) 0)
    ⟨_, _, _, rfl, by simp, by simp [recvTriples]⟩
    (by
      rintro i st hi ⟨p, ix, dt, q1, q2, rfl⟩
      rw [rd_ptrs G i (by omega), ok_bind, rd_ptrs_succ G i hi, ok_bind]
      rw [forUp_seg (G.take i).flatten.length G[i] _ (fun e (st : TrFill α) => (do
        let index ← rd st.oi e.1
        let r ← forUp 0 (e.2.length : Int) (index, st) (fun _ r => do
          let d ← rd ((recvTriples G.flatten).map (fun t => t.2.2)) r.2.counter
          let od ← wr r.2.od r.1 d
          let c ← rd ((recvTriples G.flatten).map (fun t => t.1)) r.2.counter
          let oj ← wr r.2.oj r.1 c
          .ok (r.1 + 1, { r.2 with od := od, oj := oj, counter := r.2.counter + 1 }))
        let oi ← wr r.2.oi e.1 r.1
        .ok { r.2 with oi := oi } : Res (TrFill α)))]
      · obtain ⟨st', t1, p', ix', dt', t2, t3, t4⟩ := foldlM_inv (l := G[i]) (f := fun (st : TrFill α) e => (do
            let index ← rd st.oi e.1
            let r ← forUp 0 (e.2.length : Int) (index, st) (fun _ r => do
              let d ← rd ((recvTriples G.flatten).map (fun t => t.2.2)) r.2.counter
              let od ← wr r.2.od r.1 d
              let c ← rd ((recvTriples G.flatten).map (fun t => t.1)) r.2.counter
              let oj ← wr r.2.oj r.1 c
              .ok (r.1 + 1, { r.2 with od := od, oj := oj, counter := r.2.counter + 1 }))
            let oi ← wr r.2.oi e.1 r.1
            .ok { r.2 with oi := oi } : Res (TrFill α)))
          (fun pre (st : TrFill α) => ∃ p ix dt,
            (recvTriples ((G.take i).flatten ++ pre)).foldlM (fun (out : List Int × List Int × List α) t => (do
              let k ← rd out.1 t.2.1
              let ix ← wr out.2.1 k t.1
              let dt ← wr out.2.2 k t.2.2
              let p ← wr out.1 t.2.1 (k + 1)
              .ok (p, ix, dt) : Res (List Int × List Int × List α))) (ptrs (trRows (recvTriples G.flatten) C),
                List.replicate (recvTriples G.flatten).length 0, List.replicate (recvTriples G.flatten).length 0) = .ok (p, ix, dt) ∧
            p.length = C + 1 ∧ st = ⟨p, ix, dt, ((recvTriples ((G.take i).flatten ++ pre)).length : Int)⟩)
          (s := ⟨p, ix, dt, ((recvTriples (G.take i).flatten).length : Int)⟩)
          ⟨p, ix, dt, by rw [List.append_nil]; exact q1, q2, by rw [List.append_nil]⟩
          (by
            rintro pre e post st hsp ⟨p, ix, dt, r1, r2, rfl⟩
            have hmem : e ∈ G.flatten := List.mem_flatten.mpr ⟨G[i], List.getElem_mem hi, by rw [hsp]; simp⟩
            obtain ⟨b1, b2⟩ := hr e hmem
            have hG : G.flatten = ((G.take i).flatten ++ pre) ++ ([e] ++ (post ++ (G.drop (i + 1)).flatten)) := by
              have : G.flatten = (G.take i).flatten ++ (G[i] ++ (G.drop (i + 1)).flatten) := by
                rw [← List.flatten_cons, ← List.drop_eq_getElem_cons hi, ← List.flatten_append, List.take_append_drop]
              rw [this, hsp]
              simp
            have hTs : recvTriples G.flatten = recvTriples ((G.take i).flatten ++ pre)
                ++ (rowTriples e ++ recvTriples (post ++ (G.drop (i + 1)).flatten)) := by
              conv_lhs => rw [hG, recvTriples_append, recvTriples_append]
              simp [recvTriples]
            -- the fold over this element succeeds
            have hall := s1
            conv at hall => lhs; arg 3; rw [hTs]
            rw [List.foldlM_append, r1, ok_bind, List.foldlM_append] at hall
            have hall' := hall
            obtain ⟨⟨p1, ix1, dt1⟩, f1, -⟩ := bind_eq_ok.mp (show ((rowTriples e).foldlM _ (p, ix, dt) >>= _) = Except.ok _ from hall')
            have hplt : e.1.toNat < p.length := by omega
            have hidx : rd p e.1 = .ok p[e.1.toNat] := rd_int b1 (by omega)
            obtain ⟨index', g1, g2, -⟩ := storeRow (recvTriples G.flatten) p ix dt e.1 (recvTriples ((G.take i).flatten ++ pre)) e.2
              (recvTriples (post ++ (G.drop (i + 1)).flatten)) hTs f1 hidx p
            refine ⟨⟨p1, ix1, dt1, ((recvTriples ((G.take i).flatten ++ (pre ++ [e]))).length : Int)⟩, ?_, p1, ix1, dt1, ?_,
              (wr_length g2).trans r2, rfl⟩
            · simp only [hidx, ok_bind]
              rw [g1]
              simp only [ok_bind]
              rw [g2]
              simp only [ok_bind]
              have hln : (recvTriples ((G.take i).flatten ++ (pre ++ [e]))).length
                  = (recvTriples ((G.take i).flatten ++ pre)).length + e.2.length := by
                rw [← List.append_assoc, recvTriples_append, List.length_append]
                simp [recvTriples, rowTriples]
              rw [hln]
            · rw [← List.append_assoc, recvTriples_append, List.foldlM_append, r1]
              have : recvTriples [e] = rowTriples e := by simp [recvTriples]
              rw [this]
              exact f1)
        refine ⟨st', t1, p', ix', dt', ?_, t3, ?_⟩
        · rw [take_succ_flatten' G hi]; exact t2
        · rw [take_succ_flatten' G hi]; exact t4
      · intro m hm s
        rw [rd_seg G _ i hi m hm, rd_seg G _ i hi m hm]
        simp only [ok_bind])
  rw [List.take_of_length_le (le_refl _)] at h2 h4
  rw [s1] at h2
  have h2' := Except.ok.inj h2
  simp only [Prod.mk.injEq] at h2'
  obtain ⟨rfl, rfl, rfl⟩ := h2'
  rw [h1, ok_bind, h4]
  obtain ⟨q, k4, hl4, h4c⟩ := shift_pass pf C s2
  rw [k4, ok_bind, wr_int (by omega) (by omega), ok_bind]
  have hfin : q.set (0 : Int).toNat 0 = ptrs (trRows (recvTriples G.flatten) C) := by
    apply List.ext_getElem?
    intro k
    by_cases hk : k ≤ C
    · rw [List.getElem?_eq_getElem (l := ptrs _) (by simp; omega), getElem_ptrs,
        take_trRows _ _ _ hk, List.getElem?_set]
      by_cases k0 : k = 0
      · subst k0; simp [trRows, hl4]
      · obtain ⟨c, rfl⟩ : ∃ c, k = c + 1 := ⟨k - 1, by omega⟩
        rw [if_neg (by simp), h4c c (by omega), s3 c (by omega)]
    · rw [List.getElem?_eq_none (by simp; omega), List.getElem?_eq_none (by simp; omega)]
  rw [hfin]

end Par
end Linalg
