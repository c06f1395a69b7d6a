import Verif.Props.ParProd
import Verif.Spec.Lobpcg

/-!
# LOBPCG (C114)
-/

namespace Linalg
open Cpp

variable {α R : Type}

namespace Par

theorem need_ok {a b : Int} (h : b ≤ a) : need a b = .ok () := by unfold need; rw [if_pos h]

theorem need_fails {a b : Int} (h : ¬ b ≤ a) : need a b = .error .outOfBounds := by unfold need; rw [if_neg h]

theorem mapM_error {β γ : Type} {e : Err} (l : List β) (f : β → Res γ) (h : ∀ b ∈ l, (∃ c, f b = .ok c) ∨ f b = .error e) (b : β) (hb : b ∈ l)
    (hf : f b = .error e) : l.mapM f = .error e := by
  induction l with
  | nil => simp at hb
  | cons a l ih =>
    rw [List.mapM_cons]
    rcases h a (by simp) with ⟨c, hc⟩ | hc
    · have hb' : b ∈ l := by
        rcases List.mem_cons.mp hb with rfl | h'
        · rw [hc] at hf; cases hf
        · exact h'
      rw [hc, ok_bind, ih (fun x hx => h x (by simp [hx])) hb']
      rfl
    · rw [hc]; rfl

theorem front_eq {n : Int} {a : List α} (h : (a.length : Int) = n) : front n a = .ok a := by
  unfold front
  rw [need_ok (by omega), ok_bind, List.take_of_length_le (by omega)]

theorem overwrite_eq {p v : List α} (h : p.length = v.length) : overwrite p v = p := by
  unfold overwrite
  rw [List.drop_eq_nil_of_le (by omega), List.append_nil]

theorem fronts_eq {rows : List Int} {o : List Int} {x : List (List α)} (hl : o.length = rows.length + 1)
    (hr : ∀ (p : Nat) (h : p < rows.length), rows[p] = vecAt o (p + 1) - vecAt o p) (hx : IsShares x o) :
    (rows.zip x).mapM (fun p => front p.1 p.2) = .ok x := by
  have hlx := hx.len
  rw [mapM_ok _ _ (fun p => p.2)]
  · congr 1
    rw [← List.unzip_snd, List.unzip_zip (by omega)]
  · intro p hp
    obtain ⟨k, hk, rfl⟩ := mem_zip_share (by omega) hp
    refine front_eq ?_
    rw [hx.share k (by omega), hr k hk]

theorem overwrites_eq {o : List Int} {r y : List (List α)} (hr : IsShares r o) (hy : IsShares y o) : List.zipWith overwrite r y = r := by
  have h1 := hr.len
  have h2 := hy.len
  refine List.ext_getElem (by rw [List.length_zipWith]; omega) (fun i h h' => ?_)
  rw [List.getElem_zipWith]
  refine overwrite_eq ?_
  have := hr.share i h'
  have := hy.share i (by omega)
  omega

theorem myMatvec_eq {op : ParOp α} {o : List Int} (hon : op.On o) {A : List (List α) → List (List α) → List (List α)} (hA : op.Acts o A) (a b : α)
    {x y : List (List α)} (hx : IsShares x o) (hy : IsShares y o) : myMatvec op a x b y = .ok (A x y) := by
  unfold myMatvec
  obtain ⟨h1, h2⟩ := hA x y hx hy
  rw [fronts_eq hon.len hon.rows hx, ok_bind, fronts_eq hon.len hon.rows hy, ok_bind, h1, ok_bind, overwrites_eq h2 hy]

theorem mySolve_eq {P op : ParOp α} {o : List Int} (hon : op.On o) {T : List (List α) → List (List α) → List (List α)} (hT : P.Acts o T)
    {b x : List (List α)} (hb : IsShares b o) (hx : IsShares x o) : mySolve P op b x = .ok (T b x) := by
  unfold mySolve
  obtain ⟨h1, h2⟩ := hT b x hb hx
  rw [fronts_eq hon.len hon.rows hb, ok_bind, fronts_eq hon.len hon.rows hx, ok_bind, h1, ok_bind, overwrites_eq h2 hx]

theorem runAsk_eq [Zero α] [One α] {op : ParOp α} {o : List Int} (hon : op.On o) {A : List (List α) → List (List α)} (hA : op.Acts o (fun x _ => A x))
    {T : List (List α) → List (List α) → List (List α)} {precond : Option (ParOp α)} (hT : ∀ P, precond = some P → P.Acts o T) {np n : Nat} {q : Ask α}
    (h : q.Proper A T o precond.isSome np n) :
    runAsk op precond q = .ok (q.eval A T) ∧ (q.eval A T).1.length = np ∧ (∀ e ∈ (q.eval A T).1, e.length = n) ∧ (q.eval A T).2.length = np ∧
      (∀ v ∈ (q.eval A T).2, v.length = n) ∧ ∀ i < n, IsShares ((q.eval A T).2.map (fun v => v.getD i [])) o := by
  induction h with
  | done he he' hv hv' hs => exact ⟨rfl, he, he', hv, hv', hs⟩
  | matvec hx hy _ ih =>
    refine ⟨?_, ih.2⟩
    unfold runAsk
    rw [myMatvec_eq hon hA _ _ hx hy, ok_bind]
    exact ih.1
  | precond hp hb hx _ ih =>
    refine ⟨?_, ih.2⟩
    unfold runAsk
    cases hq : precond with
    | none => rw [hq] at hp; cases hp
    | some P =>
      simp only
      rw [mySolve_eq hon (hT P hq) hb hx, ok_bind, ← hq]
      exact ih.1

theorem localSizes_eq {op : ParOp α} {o : List Int} (hon : op.On o) : op.starts.mapM localSize = .ok op.rows := by
  have hl := hon.starts_len
  rw [mapM_ok op.starts localSize (fun s => vecAt s 1 - vecAt s 0)]
  · congr 1
    refine List.ext_getElem (by rw [List.length_map, hl]) (fun p h h' => ?_)
    rw [List.getElem_map, hon.rows p h']
    obtain ⟨h0, h1⟩ := hon.starts p (by omega)
    rw [show vecAt op.starts[p] 1 = vecAt o (p + 1) by simp [vecAt, h1], show vecAt op.starts[p] 0 = vecAt o p by simp [vecAt, h0]]
  · intro s hs
    obtain ⟨p, hp, rfl⟩ := List.getElem_of_mem hs
    obtain ⟨h0, h1⟩ := hon.starts p hp
    unfold localSize
    have e1 : rd op.starts[p] 1 = .ok (vecAt o (p + 1)) := by simp [rd, h1]
    have e0 : rd op.starts[p] 0 = .ok (vecAt o p) := by simp [rd, h0]
    rw [e1, ok_bind, e0, ok_bind]
    simp [vecAt, h0, h1]

theorem copyIn_eq [Zero α] {n : Int} {x : List α} (h : (x.length : Int) = n) : copyIn n x = .ok x := by
  unfold copyIn
  rw [mkVec_int (by omega), ok_bind, need_ok (by rw [List.length_replicate]; omega), ok_bind, overwrite_eq (by rw [List.length_replicate]; omega)]

theorem copyIn_long [Zero α] {n : Int} {x : List α} (h0 : 0 ≤ n) (h : n < x.length) : copyIn n x = .error .outOfBounds := by
  unfold copyIn
  rw [mkVec_int h0, ok_bind, need_fails (by rw [List.length_replicate]; omega)]
  rfl

theorem copyIns_eq [Zero α] {rows : List Int} {o : List Int} {x : List (List (List α))} {n : Nat} (hl : o.length = rows.length + 1)
    (hr : ∀ (p : Nat) (h : p < rows.length), rows[p] = vecAt o (p + 1) - vecAt o p) (hx : StartVecs x o n) :
    (rows.zip x).mapM (fun p => p.2.mapM (copyIn p.1)) = .ok x := by
  have hlx := hx.len
  rw [mapM_ok _ _ (fun p => p.2)]
  · congr 1
    rw [← List.unzip_snd, List.unzip_zip (by omega)]
  · intro p hp
    obtain ⟨k, hk, rfl⟩ := mem_zip_share (by omega) hp
    simp only
    rw [mapM_ok _ _ id, List.map_id]
    intro v hv
    refine copyIn_eq ?_
    rw [hx.size k (by omega) v hv, hr k hk]

end Par

/-- **C114** `LOBPCG(pmat, x, precond)` on vectors of the right size: the eigenvalues are those hypre's iteration finds from exactly these vectors, with exactly
the given operator and preconditioner, and `x` holds its vectors then. -/
theorem C114_run [Zero α] [One α] (hypre : Bool → List (List (List α)) → Ask α) (op : ParOp α) (o : List Int) (hon : op.On o)
    (A : List (List α) → List (List α)) (hA : op.Acts o (fun x _ => A x)) (precond : Option (ParOp α)) (T : List (List α) → List (List α) → List (List α))
    (hT : ∀ P, precond = some P → P.Acts o T) (x : List (List (List α))) (n : Nat) (hx : Par.StartVecs x o n)
    (hh : (hypre precond.isSome x).Proper A T o precond.isSome x.length n) :
    Par.lobpcg hypre op x precond = .ok ((hypre precond.isSome x).eval A T) := by
  obtain ⟨h1, h2, h3, h4, h5, h6⟩ := Par.runAsk_eq hon hA hT hh
  unfold Par.lobpcg
  rw [Par.localSizes_eq hon, ok_bind, Par.copyIns_eq hon.len hon.rows hx, ok_bind, h1, ok_bind]
  generalize hr : (hypre precond.isSome x).eval A T = r at *
  rw [mapM_ok _ _ (fun p => p.2)]
  · rw [ok_bind, mapM_ok _ _ (fun p => p.2)]
    · rw [ok_bind, ← List.unzip_snd, List.unzip_zip (by omega), ← List.unzip_snd, List.unzip_zip (by omega)]
    · intro p hp
      obtain ⟨k, hk, rfl⟩ := Par.mem_zip_share (by omega) hp
      simp only
      have e1 := hx.num x[k] (List.getElem_mem hk)
      have e2 := h5 (r.2[k]'(by omega)) (List.getElem_mem _)
      rw [mapM_ok _ _ (fun q => q.2)]
      · rw [← List.unzip_snd, List.unzip_zip (by omega)]
      · intro q hq
        obtain ⟨i, hi, rfl⟩ := Par.mem_zip_share (by omega) hq
        refine Par.front_eq ?_
        have := (h6 i (by omega)).share k (by rw [List.length_map]; omega)
        rw [List.getElem_map, List.getD_eq_getElem?_getD, List.getElem?_eq_getElem (by omega), Option.getD_some] at this
        rw [this, hx.size k hk _ (List.getElem_mem _)]
  · intro p hp
    obtain ⟨k, hk, rfl⟩ := Par.mem_zip_share (by omega) hp
    simp only
    have e1 := hx.num x[k] (List.getElem_mem hk)
    have e2 := h3 (r.1[k]'(by omega)) (List.getElem_mem _)
    rw [mkVec_int (by omega), ok_bind, Par.need_ok (by rw [List.length_replicate]; omega), ok_bind,
      Par.overwrite_eq (by rw [List.length_replicate]; omega)]

/-- A distributed matrix with the same distribution of rows and columns, as an operator. -/
theorem Par.opOf_on {Ms : List (ParMat α)} {o : List Int} (hM : Par.IsDist Ms o o) (mv : Par.Matvec α) : (Par.opOf mv Ms).On o where
  len := by rw [hM.rows_len]; simp [Par.opOf]
  first := hM.rows_first
  rows := fun p h => by
    have hp : p < Ms.length := by simpa [Par.opOf] using h
    simp only [Par.opOf, List.getElem_map]
    rw [(hM.share p hp).diag_rows]
  starts_len := by simp [Par.opOf]
  starts := fun p h => by
    have hp : p < Ms.length := by simpa [Par.opOf] using h
    simp only [Par.opOf, List.getElem_map]
    rw [(hM.share p hp).row_starts.eq]
    simp

theorem Par.opOf_acts [NonUnitalNonAssocSemiring R] {mv : Par.Matvec R} (hmv : Par.IsMatvec mv) {Ms : List (ParMat R)} {o : List Int}
    (hM : Par.IsDist Ms o o) : (Par.opOf mv Ms).Acts o (fun x _ => mv Ms x) := by
  intro x y hx hy
  have hl := hM.rows_len
  have hlx := hx.len
  have hly := hy.len
  refine ⟨?_, (hmv Ms o o hM x (by omega) hx).2.1⟩
  unfold Par.opOf
  simp only
  rw [Par.mapM_unit_ok]
  · rfl
  · intro p hp
    obtain ⟨k, hk, rfl⟩ := Par.mem_zip_share (by rw [List.length_zip]; omega) hp
    have w := hM.share k hk
    simp only [List.getElem_zip]
    exact Par.multCheck_ok _ (by rw [w.diag_cols, hx.share k (by omega)]) (by rw [w.diag_rows, hy.share k (by omega)])

/-- **C114** For a `ParMatrix` whose rows and columns are distributed alike, this is the iteration with the whole matrix. -/
theorem C114_matrix [NonAssocSemiring R] (hypre : Bool → List (List (List R)) → Ask R) (mv : Par.Matvec R) (hmv : Par.IsMatvec mv)
    (Ms : List (ParMat R)) (o : List Int) (hM : Par.IsDist Ms o o) (precond : Option (ParOp R)) (T : List (List R) → List (List R) → List (List R))
    (hT : ∀ P, precond = some P → P.Acts o T) (x : List (List (List R))) (n : Nat) (hx : Par.StartVecs x o n)
    (hh : ∀ A : List (List R) → List (List R), (∀ v, Par.IsShares v o → Par.IsShares (A v) o ∧ ∀ g, 0 ≤ g → g < vecAt o Ms.length →
      Par.globalVec (A v) g = ∑ c ∈ Finset.Ico (0 : Int) (vecAt o Ms.length), Par.globalCoef Ms g c * Par.globalVec v c) →
      (hypre precond.isSome x).Proper A T o precond.isSome x.length n) :
    ∃ A : List (List R) → List (List R), (∀ v, Par.IsShares v o → Par.IsShares (A v) o ∧ ∀ g, 0 ≤ g → g < vecAt o Ms.length →
      Par.globalVec (A v) g = ∑ c ∈ Finset.Ico (0 : Int) (vecAt o Ms.length), Par.globalCoef Ms g c * Par.globalVec v c) ∧
      Par.lobpcg hypre (Par.opOf mv Ms) x precond = .ok ((hypre precond.isSome x).eval A T) := by
  have hl := hM.rows_len
  have hA : ∀ v, Par.IsShares v o → Par.IsShares (mv Ms v) o ∧ ∀ g, 0 ≤ g → g < vecAt o Ms.length →
      Par.globalVec (mv Ms v) g = ∑ c ∈ Finset.Ico (0 : Int) (vecAt o Ms.length), Par.globalCoef Ms g c * Par.globalVec v c := by
    intro v hv
    have := hv.len
    exact (hmv Ms o o hM v (by omega) hv).2
  exact ⟨mv Ms, hA, C114_run hypre _ o (Par.opOf_on hM mv) _ (Par.opOf_acts hmv hM) precond T hT x n hx (hh _ hA)⟩

/-- **C114** A start vector that is longer than the process has rows is copied beyond the end of hypre's array. -/
theorem C114_long [Zero α] (hypre : Bool → List (List (List α)) → Ask α) (op : ParOp α) (o : List Int) (hon : op.On o) (precond : Option (ParOp α))
    (x : List (List (List α))) (hl : o.length = x.length + 1) (p : Nat) (hp : p < x.length) (v : List α) (hv : v ∈ x[p])
    (hmono : ∀ q < x.length, vecAt o q ≤ vecAt o (q + 1)) (hlong : vecAt o (p + 1) - vecAt o p < (v.length : Int)) :
    Par.lobpcg hypre op x precond = .error .outOfBounds := by
  have one : ∀ (n : Int), 0 ≤ n → ∀ a : List α, (∃ b, Par.copyIn n a = .ok b) ∨ Par.copyIn n a = .error .outOfBounds := by
    intro n hn a
    by_cases ha : n < (a.length : Int)
    · exact Or.inr (Par.copyIn_long hn ha)
    · left
      unfold Par.copyIn
      rw [mkVec_int hn, ok_bind, Par.need_ok (by rw [List.length_replicate]; omega), ok_bind]
      exact ⟨_, rfl⟩
  have all : ∀ (n : Int), 0 ≤ n → ∀ w : List (List α), (∃ c, w.mapM (Par.copyIn n) = .ok c) ∨ w.mapM (Par.copyIn n) = .error .outOfBounds := by
    intro n hn w
    by_cases hw : ∃ a ∈ w, Par.copyIn n a = .error .outOfBounds
    · obtain ⟨a, ha, e⟩ := hw
      exact Or.inr (Par.mapM_error w _ (fun b _ => one n hn b) a ha e)
    · left
      have : ∀ a ∈ w, Par.copyIn n a = .ok (match Par.copyIn n a with | .ok b => b | .error _ => []) := by
        intro a ha
        rcases one n hn a with ⟨b, hb⟩ | hb
        · rw [hb]
        · exact absurd ⟨a, ha, hb⟩ hw
      exact ⟨_, mapM_ok w _ _ this⟩
  have hn : ∀ q < x.length, ∀ h : q < op.rows.length, 0 ≤ op.rows[q] := by
    intro q hq h
    rw [hon.rows q h]
    have := hmono q hq
    omega
  have hol := hon.len
  unfold Par.lobpcg
  rw [Par.localSizes_eq hon, ok_bind, Par.mapM_error _ _ ?_ (op.rows[p]'(by omega), x[p]) ?_ ?_]
  · rfl
  · intro b hb
    obtain ⟨k, hk, rfl⟩ := Par.mem_zip_share (by omega) hb
    exact all _ (hn k (by omega) hk) _
  · rw [List.mem_iff_getElem]
    exact ⟨p, by rw [List.length_zip]; omega, by rw [List.getElem_zip]⟩
  · have h0 := hn p hp (by omega)
    refine Par.mapM_error _ _ (fun b _ => one _ h0 b) v hv (Par.copyIn_long h0 ?_)
    rw [hon.rows p (by omega)]
    exact hlong

/-- **C114** Start vectors that are shorter are completed with zeros; what does not fit into them is not returned. -/
theorem C114_short [Zero α] [One α] (hypre : Bool → List (List (List α)) → Ask α) (op : ParOp α) (o : List Int) (hon : op.On o)
    (A : List (List α) → List (List α)) (hA : op.Acts o (fun x _ => A x)) (precond : Option (ParOp α)) (T : List (List α) → List (List α) → List (List α))
    (hT : ∀ P, precond = some P → P.Acts o T) (x z : List (List (List α))) (n : Nat) (hz : Par.StartVecs z o n)
    (hxz : List.Forall₂ (List.Forall₂ (fun a b => ∃ k, b = a ++ List.replicate k 0)) x z)
    (hh : (hypre precond.isSome z).Proper A T o precond.isSome z.length n) :
    Par.lobpcg hypre op x precond = .ok (((hypre precond.isSome z).eval A T).1,
      List.zipWith (List.zipWith (fun a v => v.take a.length)) x ((hypre precond.isSome z).eval A T).2) := by
  have hol := hon.len
  have hzl := hz.len
  have hxl := hxz.length_eq
  have hin : (op.rows.zip x).mapM (fun p => p.2.mapM (Par.copyIn p.1)) = .ok z := by
    rw [mapM_ok _ _ (fun p => p.2.map (fun a => a ++ List.replicate (p.1 - a.length).toNat 0))]
    · congr 1
      refine List.ext_getElem (by rw [List.length_map, List.length_zip]; omega) (fun p h h' => ?_)
      rw [List.getElem_map, List.getElem_zip]
      have hp := (List.forall₂_iff_get.1 hxz).2 p (by omega) h'
      simp only [List.get_eq_getElem] at hp
      have hpl := hp.length_eq
      refine List.ext_getElem (by rw [List.length_map]; exact hpl) (fun i g g' => ?_)
      rw [List.getElem_map]
      obtain ⟨k, hk⟩ := (List.forall₂_iff_get.1 hp).2 i (by omega) g'
      simp only [List.get_eq_getElem] at hk
      have hs := hz.size p h' _ (List.getElem_mem g')
      have hr := hon.rows p (by omega)
      rw [hk, List.length_append, List.length_replicate] at hs
      rw [hk, show (op.rows[p] - (x[p][i].length : Int)).toNat = k by omega]
    · intro p hp
      obtain ⟨k, hk, rfl⟩ := Par.mem_zip_share (by omega) hp
      refine mapM_ok _ _ _ (fun v hv => ?_)
      obtain ⟨i, hi, rfl⟩ := List.getElem_of_mem hv
      simp only at hi
      have hp := (List.forall₂_iff_get.1 hxz).2 k (by omega) (by omega)
      simp only [List.get_eq_getElem] at hp
      have hpl := hp.length_eq
      obtain ⟨m, hm⟩ := (List.forall₂_iff_get.1 hp).2 i hi (by omega)
      simp only [List.get_eq_getElem] at hm
      have hs := hz.size k (by omega) _ (List.getElem_mem (by omega : i < (z[k]'(by omega)).length))
      have hr := hon.rows k hk
      rw [hm, List.length_append, List.length_replicate] at hs
      simp only
      unfold Par.copyIn
      rw [mkVec_int (by omega), ok_bind, Par.need_ok (by rw [List.length_replicate]; omega), ok_bind]
      unfold overwrite
      rw [List.drop_replicate]
      congr 3
      omega
  obtain ⟨h1, h2, h3, h4, h5, h6⟩ := Par.runAsk_eq hon hA hT hh
  unfold Par.lobpcg
  rw [Par.localSizes_eq hon, ok_bind, hin, ok_bind, h1, ok_bind]
  generalize hr : (hypre precond.isSome z).eval A T = r at *
  have len : ∀ (p : Nat) (h : p < x.length), x[p].length = n := by
    intro p h
    have hp := (List.forall₂_iff_get.1 hxz).2 p h (by omega)
    simp only [List.get_eq_getElem] at hp
    rw [hp.length_eq]
    exact hz.num _ (List.getElem_mem _)
  rw [mapM_ok _ _ (fun p => p.2)]
  · rw [ok_bind, mapM_ok _ _ (fun p => List.zipWith (fun a v => v.take a.length) p.1 p.2)]
    · rw [ok_bind, ← List.unzip_snd, List.unzip_zip (by omega)]
      congr 2
      rw [List.map_zip_eq_zipWith]; rfl
    · intro p hp
      obtain ⟨k, hk, rfl⟩ := Par.mem_zip_share (by omega) hp
      simp only
      have e1 := len k hk
      have e2 := h5 (r.2[k]'(by omega)) (List.getElem_mem _)
      rw [mapM_ok _ _ (fun q => q.2.take q.1.length)]
      · rw [List.map_zip_eq_zipWith]; rfl
      · intro q hq
        obtain ⟨i, hi, rfl⟩ := Par.mem_zip_share (by omega) hq
        have hp := (List.forall₂_iff_get.1 hxz).2 k (by omega) (by omega)
        simp only [List.get_eq_getElem] at hp
        have hpl := hp.length_eq
        obtain ⟨m, hm⟩ := (List.forall₂_iff_get.1 hp).2 i hi (by omega)
        simp only [List.get_eq_getElem] at hm
        have hs := hz.size k (by omega) _ (List.getElem_mem (by omega : i < (z[k]'(by omega)).length))
        rw [hm, List.length_append, List.length_replicate] at hs
        have := (h6 i (by omega)).share k (by rw [List.length_map]; omega)
        rw [List.getElem_map, List.getD_eq_getElem?_getD, List.getElem?_eq_getElem (by omega), Option.getD_some] at this
        unfold Par.front
        rw [Par.need_ok (by simp only; omega), ok_bind]
        simp
  · intro p hp
    obtain ⟨k, hk, rfl⟩ := Par.mem_zip_share (by omega) hp
    simp only
    have e1 := len k hk
    have e2 := h3 (r.1[k]'(by omega)) (List.getElem_mem _)
    rw [mkVec_int (by omega), ok_bind, Par.need_ok (by rw [List.length_replicate]; omega), ok_bind,
      Par.overwrite_eq (by rw [List.length_replicate]; omega)]

/-- **C114** A product with a matrix that has another number of columns than rows on some process stops at an assertion, whatever the vectors. -/
theorem C114_square (mv : Par.Matvec α) (Ms : List (ParMat α)) (x y : List (List α)) (hx : x.length = Ms.length) (hy : y.length = Ms.length) (a b : α)
    (hr : ∀ (p : Nat) (h : p < Ms.length), ((x[p]'(by omega)).length : Int) = Ms[p].diag.rows ∧ ((y[p]'(by omega)).length : Int) = Ms[p].diag.rows)
    (p : Nat) (hp : p < Ms.length) (hne : Ms[p].diag.rows ≠ Ms[p].diag.cols) : Par.myMatvec (Par.opOf mv Ms) a x b y = .error .assertFail := by
  have fr : ∀ z : List (List α), (hz : z.length = Ms.length) → (∀ (p : Nat) (h : p < Ms.length), ((z[p]'(by omega)).length : Int) = Ms[p].diag.rows) →
      ((Par.opOf mv Ms).rows.zip z).mapM (fun p => Par.front p.1 p.2) = .ok z := by
    intro z hz hzr
    rw [mapM_ok _ _ (fun p => p.2)]
    · congr 1
      rw [← List.unzip_snd, List.unzip_zip (by simp [Par.opOf, hz])]
    · intro q hq
      obtain ⟨k, hk, rfl⟩ := Par.mem_zip_share (by simp [Par.opOf, hz]) hq
      refine Par.front_eq ?_
      have hk' : k < Ms.length := by simpa [Par.opOf] using hk
      rw [hzr k hk']
      simp [Par.opOf]
  unfold Par.myMatvec
  rw [fr x hx (fun p h => (hr p h).1), ok_bind, fr y hy (fun p h => (hr p h).2), ok_bind]
  unfold Par.opOf
  simp only
  rw [Par.mapM_fail _ _ ?_ (Ms[p], (x[p]'(by omega), y[p]'(by omega))) ?_ ?_]
  · rfl
  · intro q hq
    obtain ⟨k, hk, rfl⟩ := Par.mem_zip_share (by rw [List.length_zip]; omega) hq
    simp only [List.getElem_zip]
    by_cases hc : Ms[k].diag.rows = Ms[k].diag.cols
    · exact Or.inl ⟨(), Par.multCheck_ok _ (by rw [(hr k hk).1, hc]) (hr k hk).2⟩
    · right
      unfold ParMat.multCheck
      rw [cassert_false (by rw [(hr k hk).1]; exact hc)]
      rfl
  · rw [List.mem_iff_getElem]
    exact ⟨p, by rw [List.length_zip, List.length_zip]; omega, by rw [List.getElem_zip, List.getElem_zip]⟩
  · simp only
    unfold ParMat.multCheck
    rw [cassert_false (by rw [(hr p hp).1]; exact hne)]
    rfl

/-- **C114** What hypre gets when it asks for `alpha A x + beta y`: `A x`, whatever the factors. -/
theorem C114_matvec (op : ParOp α) (o : List Int) (hon : op.On o) (A : List (List α) → List (List α)) (hA : op.Acts o (fun x _ => A x)) (alpha beta : α)
    (x y : List (List α)) (hx : Par.IsShares x o) (hy : Par.IsShares y o) : Par.myMatvec op alpha x beta y = .ok (A x) :=
  Par.myMatvec_eq hon hA alpha beta hx hy

/-- **C114** With no vectors given, the start vectors are as many as asked for, of the right size, and random; the eigenvalues found from them are returned. -/
theorem C114_random [Zero α] [One α] (hypre : Bool → List (List (List α)) → Ask α) (op : ParOp α) (o : List Int) (hon : op.On o)
    (hmono : ∀ q < op.rows.length, vecAt o q ≤ vecAt o (q + 1))
    (A : List (List α) → List (List α)) (hA : op.Acts o (fun x _ => A x)) (precond : Option (ParOp α)) (T : List (List α) → List (List α) → List (List α))
    (hT : ∀ P, precond = some P → P.Acts o T) (n : Nat) (rand : List (List (List α)) → List (List (List α)))
    (hrand : ∀ x, Par.StartVecs x o n → Par.StartVecs (rand x) o n)
    (hh : ∀ x, Par.StartVecs x o n → (hypre precond.isSome x).Proper A T o precond.isSome x.length n) :
    ∃ x, Par.StartVecs x o n ∧ Par.lobpcgNew hypre rand op (n : Int) precond = .ok ((hypre precond.isSome x).eval A T).1 := by
  have hol := hon.len
  have hn : ∀ (q : Nat) (h : q < op.rows.length), 0 ≤ op.rows[q] := by
    intro q h
    rw [hon.rows q h]
    have := hmono q h
    omega
  have h0 : op.rows.mapM (fun n' => do
      let v ← mkVec n' (0 : α)
      mkVec (n : Int) v) = .ok (op.rows.map (fun n' => List.replicate n (List.replicate n'.toNat (0 : α)))) := by
    refine mapM_ok _ _ _ (fun m hm => ?_)
    obtain ⟨q, hq, rfl⟩ := List.getElem_of_mem hm
    rw [mkVec_int (hn q hq), ok_bind, mkVec_nat]
  have hs : Par.StartVecs (op.rows.map (fun n' => List.replicate n (List.replicate n'.toNat (0 : α)))) o n := by
    refine ⟨by rw [List.length_map]; exact hol, ?_, ?_⟩
    · intro v hv
      obtain ⟨m, _, rfl⟩ := List.mem_map.1 hv
      exact List.length_replicate
    · intro p h v hv
      have h' : p < op.rows.length := by simpa using h
      rw [List.getElem_map] at hv
      rw [(List.mem_replicate.1 hv).2, List.length_replicate]
      have := hn p h'
      have := hon.rows p h'
      omega
  refine ⟨_, hrand _ hs, ?_⟩
  unfold Par.lobpcgNew
  rw [h0, ok_bind, C114_run hypre op o hon A hA precond T hT _ n (hrand _ hs) (hh _ (hrand _ hs)), ok_bind]

/-- The operator that doubles what each of two processes has, one element each. -/
def Par.doubling : ParOp Int := ⟨[1, 1], [[0, 1, 2], [1, 2, 2]], fun x _ => .ok (x.map (fun v => v.map (fun a => 2 * a)))⟩

theorem Par.doubling_on : Par.doubling.On [0, 1, 2] where
  len := rfl
  first := rfl
  rows := by decide
  starts_len := rfl
  starts := by decide

theorem Par.doubling_acts : Par.doubling.Acts [0, 1, 2] (fun x _ => x.map (fun v => v.map (fun a => 2 * a))) := by
  intro x y hx _
  refine ⟨rfl, ⟨by rw [List.length_map]; exact hx.len, hx.first, fun p h => ?_⟩⟩
  rw [List.getElem_map, List.length_map]
  exact hx.share p (by simpa using h)

/-- **C114** Negation: the function given to hypre as the product `y = alpha A x + beta y` does not compute it.  (hypre's LOBPCG only uses `1` and `0`.) -/
theorem C114_matvec_false : ∃ (op : ParOp Int) (o : List Int) (A : List (List Int) → List (List Int)) (alpha beta : Int) (x y : List (List Int)),
    op.On o ∧ op.Acts o (fun x _ => A x) ∧ Par.IsShares x o ∧ Par.IsShares y o ∧
    Par.myMatvec op alpha x beta y ≠ .ok (List.zipWith (List.zipWith (fun a b => alpha * a + beta * b)) (A x) y) := by
  refine ⟨Par.doubling, [0, 1, 2], _, 1, 1, [[1], [3]], [[5], [7]], Par.doubling_on, Par.doubling_acts, ⟨rfl, rfl, by decide⟩, ⟨rfl, rfl, by decide⟩, ?_⟩
  rw [C114_matvec Par.doubling [0, 1, 2] Par.doubling_on _ Par.doubling_acts 1 1 _ _ ⟨rfl, rfl, by decide⟩ ⟨rfl, rfl, by decide⟩]
  decide

/-- C114: a program that meets the hypotheses: it multiplies the first vector, hands the result to the preconditioner, and returns what it gets, with the number
it started from; the preconditioner adds what it finds in the vector it overwrites. -/
example :
    let T := fun (b x : List (List Int)) => List.zipWith (List.zipWith (· + ·)) b x
    let hypre : Bool → List (List (List Int)) → Ask Int := fun _ s =>
      .matvec 1 (s.map (fun v => v.getD 0 [])) 0 [[0], [0]] (fun y => .precond y [[10], [20]] (fun z => .done [[1], [1]] (z.map (fun v => [v]))))
    (hypre true [[[1]], [[3]]]).Proper (fun x => x.map (fun v => v.map (fun a => 2 * a))) T [0, 1, 2] true 2 1 ∧
    Par.StartVecs ([[[1]], [[3]]] : List (List (List Int))) [0, 1, 2] 1 ∧
    Par.lobpcg hypre Par.doubling [[[1]], [[3]]] (some ⟨[1, 1], [], fun b x => .ok (T b x)⟩) = .ok ([[1], [1]], [[[12]], [[26]]]) := by
  refine ⟨.matvec ⟨rfl, rfl, by decide⟩ ⟨rfl, rfl, by decide⟩ (.precond rfl ⟨rfl, rfl, by decide⟩ ⟨rfl, rfl, by decide⟩
    (.done rfl (by decide) rfl (by decide) ?_)), ⟨rfl, by decide, by decide⟩, by decide +kernel⟩
  intro i hi
  obtain rfl : i = 0 := by omega
  exact ⟨rfl, rfl, by decide⟩

/-- C114: too long a vector. -/
example : Par.lobpcg (fun _ s => .done [[0], [0]] s) Par.doubling [[[1, 2]], [[3]]] none = .error .outOfBounds :=
  C114_long _ _ _ Par.doubling_on _ _ rfl 0 (by decide) [1, 2] (by decide) (by decide) (by decide)

end Linalg
