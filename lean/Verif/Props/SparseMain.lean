import Verif.Model.SparseMain
import Verif.Props.Laplacian
import Verif.Props.SparseTranspose
import Verif.Props.SparseMult
import Verif.Props.SparseDense
import Verif.Props.Io

/-!
# C120: the sparse example from the file to the printed numbers
-/

namespace Linalg
open Cpp Io

variable {R K : Type}

/-- Two rows of a matrix store a common column: two vertices have a common edge. -/
def Csr.Meet (E : Csr R) (i j : Int) : Prop := ∃ k, E.Stored i k ∧ E.Stored j k

theorem Csr.Meet.symm {E : Csr R} {i j : Int} (h : E.Meet i j) : E.Meet j i := by
  obtain ⟨k, h1, h2⟩ := h
  exact ⟨k, h2, h1⟩

theorem Csr.Stored.inRange {E : Csr R} (hE : E.WF) {i j : Int} (h : E.Stored i j) :
    0 ≤ i ∧ i < E.rows ∧ 0 ≤ j ∧ j < E.cols := by
  obtain ⟨n, rs, hn, hrs, rfl⟩ := hE.exists_rows
  unfold Csr.Stored at h
  by_cases h0 : 0 ≤ i
  · by_cases h1 : i < (rs.length : Int)
    · obtain ⟨k, rfl⟩ := Int.eq_ofNat_of_zero_le h0
      have hk : k < rs.length := by omega
      rw [row_ofRows n rs k hk] at h
      obtain ⟨e, he, rfl⟩ := List.mem_map.mp h
      have := hrs _ (List.getElem_mem hk) e he
      exact ⟨h0, h1, this.1, this.2⟩
    · rw [row_ge _ hE.indptr_len (by change ((rs.length : Nat) : Int) ≤ i; omega)] at h
      simp at h
  · rw [row_neg _ (by omega)] at h
    simp at h

/-- **C120.**  `vertex_edge.Mult(vertex_edge.Transpose())` stores the pairs of vertices that have a common edge, whatever the values. -/
theorem C120_pattern [NonUnitalNonAssocSemiring R] (E : Csr R) (hE : E.WF) :
    ∃ T V, E.transpose = .ok T ∧ E.multSparse T = .ok V ∧ V.WF ∧ V.NoDup ∧ V.rows = E.rows ∧ V.cols = E.rows ∧
      ∀ i j, V.Stored i j ↔ E.Meet i j := by
  obtain ⟨T, t1, t2, t3, t4, _, t6⟩ := C03_transpose E hE
  obtain ⟨V, v1, v2, v3, v4, v5, _⟩ := C04_mult E T hE t2 t3
  refine ⟨T, V, t1, v1, v2, v3, v4, by rw [v5, t4], fun i j => ?_⟩
  by_cases hi : 0 ≤ i ∧ i < E.rows
  · have hp := C04_pattern E T hE t2 t3 V v1 i j hi.1 hi.2
    unfold Csr.Stored at *
    rw [hp]
    constructor
    · rintro ⟨a, ha, b, hb, rfl⟩
      have hs : E.Stored i a.1 := List.mem_map_of_mem ha
      have hr := hs.inRange hE
      rw [t6 a.1 hr.2.2.1 hr.2.2.2] at hb
      unfold Csr.column at hb
      rw [List.mem_flatMap] at hb
      obtain ⟨r, _, hb⟩ := hb
      rw [List.mem_map] at hb
      obtain ⟨e, he, rfl⟩ := hb
      rw [List.mem_filter] at he
      refine ⟨a.1, hs, List.mem_map.mpr ⟨e, he.1, by simpa using he.2⟩⟩
    · rintro ⟨k, hik, hjk⟩
      obtain ⟨a, ha, rfl⟩ := List.mem_map.mp hik
      have hr := hik.inRange hE
      have hr' := hjk.inRange hE
      obtain ⟨e, he, hek⟩ := List.mem_map.mp hjk
      refine ⟨a, ha, (j, e.2), ?_, rfl⟩
      rw [t6 a.1 hr.2.2.1 hr.2.2.2]
      unfold Csr.column
      rw [List.mem_flatMap]
      refine ⟨j, ?_, List.mem_map.mpr ⟨e, List.mem_filter.mpr ⟨he, by simpa using hek⟩, rfl⟩⟩
      rw [mem_iota]
      omega
  · constructor
    · intro h
      have := h.inRange v2
      rw [v4] at this
      exact absurd ⟨this.1, this.2.1⟩ hi
    · rintro ⟨k, h, _⟩
      have := h.inRange hE
      exact absurd ⟨this.1, this.2.1⟩ hi

/-- **C120.**  The matrix of the example is the Laplacian of the graph of the vertices with a common edge: -1 for such a pair, the number of
neighbours on the diagonal, 0 elsewhere.  The values in the file do not matter. -/
theorem C120_laplacian [Ring R] [DecidableEq R] (E : Csr R) (hE : E.WF) (hv : ∀ i, 0 ≤ i → i < E.rows → E.row i ≠ []) :
    ∃ L, Example.graphLaplacian E = .ok L ∧ L.WF ∧ L.rows = E.rows ∧ L.cols = E.rows ∧
      ∃ nb : Int → Finset Int, (∀ i j, j ∈ nb i ↔ j ≠ i ∧ E.Meet i j) ∧
        ∀ i j, 0 ≤ i → i < E.rows → L.coef i j = if j = i then ((nb i).card : R) else if j ∈ nb i then -1 else 0 := by
  obtain ⟨T, V, t1, v1, v2, v3, v4, v5, v6⟩ := C120_pattern E hE
  have hd : ∀ i, 0 ≤ i → i < V.rows → V.Stored i i := by
    intro i h0 h1
    rw [v6]
    obtain ⟨a, ha⟩ := List.exists_mem_of_ne_nil _ (hv i h0 (by omega))
    exact ⟨a.1, List.mem_map_of_mem ha, List.mem_map_of_mem ha⟩
  obtain ⟨L, l1, l2, l3, l4⟩ := C95_laplacian V v2 v3 hd
  refine ⟨L, ?_, l2, by rw [l3.rows_eq, v4], by rw [l3.cols_eq, v5],
    fun i => (((V.row i).filter (fun e => e.1 ≠ i)).map Prod.fst).toFinset, ?_, ?_⟩
  · unfold Example.graphLaplacian
    rw [t1, ok_bind, v1, ok_bind, l1]
  · intro i j
    rw [← v6]
    simp only [List.mem_toFinset, List.mem_map, List.mem_filter, Csr.Stored]
    constructor
    · rintro ⟨e, ⟨he, hne⟩, rfl⟩
      exact ⟨by simpa using hne, e, he, rfl⟩
    · rintro ⟨hne, e, he, rfl⟩
      exact ⟨e, ⟨he, by simpa using hne⟩, rfl⟩
  · intro i j h0 h1
    have hmem : ∀ j, j ∈ (((V.row i).filter (fun e => e.1 ≠ i)).map Prod.fst).toFinset ↔ j ≠ i ∧ V.Stored i j := by
      intro j
      simp only [List.mem_toFinset, List.mem_map, List.mem_filter, Csr.Stored]
      constructor
      · rintro ⟨e, ⟨he, hne⟩, rfl⟩
        exact ⟨by simpa using hne, e, he, rfl⟩
      · rintro ⟨hne, e, he, rfl⟩
        exact ⟨e, ⟨he, by simpa using hne⟩, rfl⟩
    by_cases hij : j = i
    · subst hij
      rw [if_pos rfl, l4.diag j h0 (by omega), List.toFinset_card_of_nodup, List.length_map]
      · rfl
      · exact ((v3 j).sublist (List.Sublist.map _ List.filter_sublist))
    · rw [if_neg hij]
      by_cases hs : V.Stored i j
      · rw [if_pos ((hmem j).mpr ⟨hij, hs⟩), l4.edge i j h0 (by omega) (fun e => hij e.symm) hs]
      · rw [if_neg (fun h => hs ((hmem j).mp h).2), l4.none i j h0 (by omega) (fun e => hij e.symm) hs]

/-- **C120.**  A vertex without an edge stops the program. -/
theorem C120_isolated [Ring R] (E : Csr R) (hE : E.WF) (i : Int) (h0 : 0 ≤ i) (h1 : i < E.rows) (hi : E.row i = []) :
    Example.graphLaplacian E = .error .assertFail := by
  obtain ⟨T, V, t1, v1, v2, v3, v4, v5, v6⟩ := C120_pattern E hE
  unfold Example.graphLaplacian
  rw [t1, ok_bind, v1, ok_bind]
  refine C95_missing V v2 v3 i h0 (by omega) ?_
  rw [v6]
  rintro ⟨k, h, _⟩
  unfold Csr.Stored at h
  rw [hi] at h
  simp at h

/-- **C120.**  What the program prints, for any file it can read: the number of vertices, and a number between 0 and twice the largest number of
neighbours.  It fails only if the start vector is constant on every component of the graph. -/
theorem C120_run [Field K] [LinearOrder K] [IsStrictOrderedRing K] {sqrt : K → K} (hsq : IsSqrt sqrt) (F : Fmt K) (file : Option Text) (E : Csr K)
    (hread : readCooList F file false = .ok E) (hv : ∀ i, 0 ≤ i → i < E.rows → E.row i ≠ []) (start : Int → List K)
    (hstart : ((start E.rows).length : Int) = E.rows) (tol : K) :
    (∀ r n, Example.sparseMain F sqrt start tol file = .ok (r, n) → n = E.rows ∧ 0 ≤ r ∧
      ∀ d : Nat, (∀ i, ∀ s : Finset Int, (∀ j ∈ s, j ≠ i ∧ E.Meet i j) → s.card ≤ d) → r ≤ 2 * d) ∧
    ((∀ i j, E.Meet i j → vecAt (start E.rows) i = vecAt (start E.rows) j) → Example.sparseMain F sqrt start tol file = .error .assertFail) ∧
    ((∃ i j, E.Meet i j ∧ vecAt (start E.rows) i ≠ vecAt (start E.rows) j) → ∃ r n, Example.sparseMain F sqrt start tol file = .ok (r, n)) := by
  have hE : E.WF := by
    rcases file with _ | t
    · cases hread
    · unfold readCooList openIn at hread
      simp only [ok_bind] at hread
      rw [foldlM_addAll (fun C e => addEntry_eq 0 _ C e)] at hread
      exact (toSparse_of (Or.inl rfl) hread).1
  obtain ⟨T, V, t1, v1, v2, v3, v4, v5, v6⟩ := C120_pattern E hE
  have hd : ∀ i, 0 ≤ i → i < V.rows → V.Stored i i := by
    intro i h0 h1
    rw [v6]
    obtain ⟨a, ha⟩ := List.exists_mem_of_ne_nil _ (hv i h0 (by omega))
    exact ⟨a.1, List.mem_map_of_mem ha, List.mem_map_of_mem ha⟩
  obtain ⟨L, l1, l2, l3, l4⟩ := C95_laplacian V v2 v3 hd
  have hrows : L.rows = E.rows := by rw [l3.rows_eq, v4]
  have hsymm : ∀ i j, V.Stored i j → V.Stored j i := fun i j h => by
    rw [v6] at h ⊢
    exact h.symm
  have hmain : Example.sparseMain F sqrt start tol file =
      (Example.powerIterate sqrt L.toOp (start E.rows) ((1000 : Nat) : Int) tol >>= fun r => .ok (r, E.rows)) := by
    unfold Example.sparseMain Example.graphLaplacian
    rw [hread, ok_bind, t1, ok_bind, v1, ok_bind, l1, ok_bind]
    simp only [hrows]
    show _ = (Example.powerIterate sqrt ⟨L.rows, L.cols, L.mult, L.multAT⟩ (start E.rows) 1000 tol >>= _)
    rw [hrows]
  have hx : ((start E.rows).length : Int) = V.rows := by rw [v4, hstart]
  refine ⟨?_, ?_⟩
  · intro r n hr
    rw [hmain, bind_eq_ok] at hr
    obtain ⟨r', hr', hrn⟩ := hr
    injection hrn with hrn
    injection hrn with e1 e2
    subst e1 e2
    have hpow : ∀ d : Nat, (∀ i, 0 ≤ i → i < V.rows → V.degree i ≤ d) → 0 ≤ r' ∧ r' ≤ 2 * (d : K) := by
      intro d hdeg
      obtain ⟨L', k1, k2, _⟩ := C95_power hsq V v2 v3 (by rw [v4, v5]) hsymm hd (d : K)
        (fun i h0 h1 => by exact_mod_cast hdeg i h0 h1) (start E.rows) hx tol
      rw [l1] at k1
      obtain rfl := Except.ok.inj k1
      exact k2 1000 r' (by norm_num) hr'
    refine ⟨rfl, ?_, ?_⟩
    · refine (hpow V.data.length (fun i h0 h1 => ?_)).1
      obtain ⟨m, rs, hm, hrs, rfl⟩ := v2.exists_rows
      obtain ⟨k, rfl⟩ := Int.eq_ofNat_of_zero_le h0
      have hk : k < rs.length := by
        have : (Csr.ofRows m rs).rows = (rs.length : Int) := rfl
        omega
      unfold Csr.degree
      rw [Csr.row_ofRows m rs k hk]
      refine (List.length_filter_le _ _).trans ?_
      show rs[k].length ≤ (rs.flatten.map Prod.snd).length
      rw [List.length_map]
      exact (List.sublist_flatten_of_mem (List.getElem_mem hk)).length_le
    · intro d hdeg
      refine (hpow d (fun i h0 h1 => ?_)).2
      have hnd : (((V.row i).filter (fun e => e.1 ≠ i)).map Prod.fst).Nodup :=
        (v3 i).sublist (List.Sublist.map _ List.filter_sublist)
      have := hdeg i (((V.row i).filter (fun e => e.1 ≠ i)).map Prod.fst).toFinset (by
        intro j hj
        rw [← v6]
        simp only [List.mem_toFinset, List.mem_map, List.mem_filter] at hj
        obtain ⟨e, ⟨he, hne⟩, rfl⟩ := hj
        exact ⟨by simpa using hne, List.mem_map_of_mem he⟩)
      rw [List.toFinset_card_of_nodup hnd, List.length_map] at this
      exact this
  · have hop := C42_sparse_op L l2 (by rw [l3.rows_eq, l3.cols_eq, v4, v5])
    rw [hrows, ← hstart] at hop
    rw [hmain]
    obtain ⟨-, -, hnull⟩ := C95_semidefinite V v2 v3 (by rw [v4, v5]) hsymm L.coef l4
    have hsym := (C95_form V v2 v3 (by rw [v4, v5]) hsymm L.coef l4).1
    rw [← hx] at hnull hsym
    have hconst : (∀ i j, E.Meet i j → vecAt (start E.rows) i = vecAt (start E.rows) j) ↔
        ZeroOn (start E.rows).length (matVec (start E.rows).length L.coef (vecAt (start E.rows))) := by
      constructor
      · intro h i i0 i1
        rw [hx] at i1 ⊢
        rw [Example.lap_apply V v2 v3 (by rw [v4, v5]) L.coef l4 (vecAt (start E.rows)) i i0 i1]
        apply Finset.sum_eq_zero
        intro j _
        by_cases hs : V.Stored i j
        · rw [h i j ((v6 i j).mp hs), sub_self, mul_zero]
        · simp [Example.edge, hs]
      · intro h i j hm
        refine (hnull (vecAt (start E.rows))).mp ?_ i j ((v6 i j).mpr hm)
        rw [dotFn_symm, dotFn_zero_left h]
    constructor
    · intro h
      rw [hconst] at h
      by_cases hz : ZeroOn (start E.rows).length (vecAt (start E.rows))
      · rw [(C94_start hsq L.toOp _ L.coef hop (start E.rows) rfl _ tol).1 hz]
        rfl
      · rcases C94_result hsq L.toOp _ L.coef hop (start E.rows) rfl hz 1000 (by norm_num) tol with ⟨j, _, e0, _, _, _⟩ | ⟨j, _, _, _, _, e⟩
        · exact absurd h (e0 1 (by omega))
        · rw [e]
          rfl
    · rintro ⟨i, j, hm, hne⟩
      have h : ¬ ZeroOn (start E.rows).length (matVec (start E.rows).length L.coef (vecAt (start E.rows))) := by
        rw [← hconst]
        exact fun h => hne (h i j hm)
      have hpow : ∀ k, ¬ ZeroOn (start E.rows).length (matPow (start E.rows).length L.coef (k + 1) (vecAt (start E.rows))) := by
        intro k
        induction k with
        | zero => exact h
        | succ k ih =>
          intro h0
          have hp := dotFn_self_pos ih
          rw [show matPow (start E.rows).length L.coef (k + 1) (vecAt (start E.rows)) =
            matVec (start E.rows).length L.coef (matPow (start E.rows).length L.coef k (vecAt (start E.rows))) from rfl,
            dotFn_selfAdj hsym, dotFn_symm] at hp
          rw [dotFn_zero_left (f := matVec _ L.coef (matVec _ L.coef _)) h0] at hp
          exact lt_irrefl _ hp
      have hz : ¬ ZeroOn (start E.rows).length (vecAt (start E.rows)) := by
        intro hz
        apply h
        intro i _ _
        unfold matVec
        exact Finset.sum_eq_zero (fun c hc => by
          rw [Finset.mem_Ico] at hc
          rw [hz c hc.1 hc.2, mul_zero])
      rcases C94_result hsq L.toOp _ L.coef hop (start E.rows) rfl hz 1000 (by norm_num) tol with ⟨j, _, _, _, _, e⟩ | ⟨j, _, _, e0, _, _⟩
      · rw [e]
        exact ⟨_, _, rfl⟩
      · exact absurd e0 (hpow j)

/-- **C120.**  `parse_dense` gives the sum of the values of each position in the file, and the smallest size that holds them. -/
theorem C120_parseDense [AddCommMonoid R] (F : Fmt R) (file : Option Text) (E : Csr R) (hread : readCooList F file false = .ok E) :
    ∃ D, Example.parseDense F file = .ok D ∧ D.Is E.rows E.cols E.coef := by
  have hE : E.WF ∧ E.NoDup := by
    rcases file with _ | t
    · cases hread
    · unfold readCooList openIn at hread
      simp only [ok_bind] at hread
      rw [foldlM_addAll (fun C e => addEntry_eq 0 _ C e)] at hread
      have := toSparse_of (Or.inl rfl) hread
      exact ⟨this.1, this.2.1⟩
  obtain ⟨D, d1, d2⟩ := C06_toDense_partial E hE.1 hE.2
  refine ⟨D, ?_, d2⟩
  unfold Example.parseDense
  rw [hread, ok_bind, d1]

/-! ## An instance -/

/-- C120: three vertices, an edge of the first two and an edge of the last two, with any values; the Laplacian of the path. -/
example : (⟨3, 2, [0, 1, 3, 4], [0, 0, 1, 1], [5, 7, -2, 1]⟩ : Csr Int).WF ∧
    (∀ i, 0 ≤ i → i < 3 → (⟨3, 2, [0, 1, 3, 4], [0, 0, 1, 1], [5, 7, -2, 1]⟩ : Csr Int).row i ≠ []) ∧
    Example.graphLaplacian (⟨3, 2, [0, 1, 3, 4], [0, 0, 1, 1], [5, 7, -2, 1]⟩ : Csr Int) =
      .ok ⟨3, 3, [0, 2, 5, 7], [0, 1, 0, 1, 2, 1, 2], [1, -1, -1, 2, -1, -1, 1]⟩ ∧
    readCooList intFmt (some "0 0 5\n1 0 7\n1 1 -2\n2 1 1\n".toList) false =
      .ok ⟨3, 2, [0, 1, 3, 4], [0, 0, 1, 1], [5, 7, -2, 1]⟩ ∧
    Example.graphLaplacian (⟨2, 1, [0, 1, 1], [0], [5]⟩ : Csr Int) = .error .assertFail := by
  refine ⟨by decide, fun i h0 h1 => ?_, by decide +kernel, by decide +kernel, by decide +kernel⟩
  have : i = 0 ∨ i = 1 ∨ i = 2 := by omega
  rcases this with rfl | rfl | rfl <;> decide

end Linalg
