import Verif.Model.Mixed
import Verif.Spec.Mixed
import Verif.Proof.Alias
import Verif.Props.Order

/-! # Three element types as one: values that remember where they came from -/

namespace Linalg
open Cpp

variable {T U V : Type}

/-- A value of the matrix, of the argument, of the result, a product, or something that does not occur. -/
inductive MixVal (T U V : Type)
  | t (a : T)
  | u (b : U)
  | v (c : V)
  | p (a : T) (b : U)
  | bad

/-- What is stored when the value is written to the result. -/
def MixVal.val [Zero V] (m : Mix T U V) : MixVal T U V → V
  | .v c => c
  | .p a b => m.set a b
  | _ => 0

/-- A value that can be in the result. -/
def MixVal.Good : MixVal T U V → Prop
  | .v _ => True
  | .p _ _ => True
  | _ => False

instance [Zero V] : Zero (MixVal T U V) := ⟨.v 0⟩

/-- Products of the two operands. -/
instance : Mul (MixVal T U V) := ⟨fun x y =>
  match x, y with
  | .t a, .u b => .p a b
  | _, _ => .bad⟩

/-- Adding a product to the result. -/
def MixVal.plus [Zero V] (m : Mix T U V) (x y : MixVal T U V) : MixVal T U V :=
  match y with
  | .p a b => .v (m.acc (x.val m) a b)
  | _ => .bad

theorem MixVal.mul_eq (a : T) (b : U) : (MixVal.t a * MixVal.u b : MixVal T U V) = .p a b := rfl

theorem rd_map {α β : Type} (f : α → β) (v : List α) (i : Int) : rd (v.map f) i = (rd v i).map f := by
  unfold rd
  split
  · rw [List.getElem?_map]
    cases v[i.toNat]? <;> rfl
  · rfl

theorem wr_map {α β : Type} (f : α → β) (v : List α) (i : Int) (x : α) : wr (v.map f) i (f x) = (wr v i x).map (List.map f) := by
  unfold wr
  rw [List.length_map]
  split
  · show _ = Except.ok _
    rw [List.map_set]
  · rfl

theorem vrd_map {α β : Type} (f : α → β) (v : List α) (i : Int) : vrd (v.map f) i = (vrd v i).map f := by
  unfold vrd
  rw [List.length_map, rd_map]
  cases cassert (i < (v.length : Int)) <;> rfl

theorem vwr_map {α β : Type} (f : α → β) (v : List α) (i : Int) (x : α) : vwr (v.map f) i (f x) = (vwr v i x).map (List.map f) := by
  unfold vwr
  rw [List.length_map, wr_map]
  cases cassert (i < (v.length : Int)) <;> rfl

/-- Running on the left what is mapped on the right. -/
theorem Sim.of_map {α β : Type} (f : α → β) (r : Res α) : Sim (fun b a => b = f a ∧ r = .ok a) (r.map f) r := by
  cases r with
  | error e => exact rfl
  | ok a => exact ⟨a, rfl, rfl, rfl⟩

/-- A result vector and the values it was made from. -/
def MixRel [Zero V] (m : Mix T U V) (y : List V) (w : List (MixVal T U V)) : Prop := y = w.map (MixVal.val m) ∧ ∀ e ∈ w, e.Good

theorem MixRel.rd [Zero V] {m : Mix T U V} {y : List V} {w : List (MixVal T U V)} (h : MixRel m y w) (i : Int) :
    Sim (fun c e => c = e.val m ∧ e.Good) (rd y i) (rd w i) := by
  rw [h.1, rd_map]
  cases hw : Cpp.rd w i with
  | error e => exact rfl
  | ok a => exact ⟨a, rfl, rfl, h.2 a (mem_of_rd hw)⟩

theorem MixRel.vrd [Zero V] {m : Mix T U V} {y : List V} {w : List (MixVal T U V)} (h : MixRel m y w) (i : Int) :
    Sim (fun c e => c = e.val m ∧ e.Good) (vrd y i) (vrd w i) := by
  unfold Cpp.vrd
  rw [show y.length = w.length from by rw [h.1, List.length_map]]
  exact Sim.same (fun _ _ => h.rd i)

theorem mem_of_wr {β : Type} {v v' : List β} {i : Int} {x e : β} (h : wr v i x = .ok v') (he : e ∈ v') : e = x ∨ e ∈ v := by
  unfold wr at h
  split at h
  · cases h
    exact (List.mem_or_eq_of_mem_set he).symm
  · cases h

theorem MixRel.wr [Zero V] {m : Mix T U V} {y : List V} {w : List (MixVal T U V)} (h : MixRel m y w) (i : Int) {c : V} {e : MixVal T U V}
    (hc : c = e.val m) (he : e.Good) : Sim (MixRel m) (wr y i c) (wr w i e) := by
  rw [h.1, hc, wr_map]
  cases hw : Cpp.wr w i e with
  | error e => exact rfl
  | ok w' =>
    refine ⟨w', rfl, rfl, fun e' he' => ?_⟩
    rcases mem_of_wr hw he' with rfl | h'
    · exact he
    · exact h.2 e' h'

theorem MixRel.vwr [Zero V] {m : Mix T U V} {y : List V} {w : List (MixVal T U V)} (h : MixRel m y w) (i : Int) {c : V} {e : MixVal T U V}
    (hc : c = e.val m) (he : e.Good) : Sim (MixRel m) (vwr y i c) (vwr w i e) := by
  unfold Cpp.vwr
  rw [show y.length = w.length from by rw [h.1, List.length_map]]
  exact Sim.same (fun _ _ => h.wr i hc he)

theorem MixRel.replicate [Zero V] (m : Mix T U V) (n : Nat) : MixRel m (List.replicate n 0) (List.replicate n (0 : MixVal T U V)) := by
  refine ⟨by rw [List.map_replicate]; rfl, fun e he => ?_⟩
  rw [(List.mem_replicate.1 he).2]
  trivial

theorem MixRel.mkVec [Zero V] (m : Mix T U V) (n : Int) : Sim (MixRel m) (mkVec n 0) (mkVec n (0 : MixVal T U V)) := by
  unfold Cpp.mkVec
  split
  · exact Sim.ok (MixRel.replicate m _)
  · exact rfl

theorem Csr.withData_wf {α β : Type} {A : Csr α} (h : A.WF) (f : α → β) : (A.withData f).WF :=
  ⟨h.rows_nonneg, h.cols_nonneg, h.indptr_len, h.indptr_first, h.indptr_mono, by rw [withData, List.length_map]; exact h.indptr_last,
    by rw [withData, List.length_map]; exact h.indices_len, h.cols_ok⟩

theorem Csr.row_withData {α β : Type} (A : Csr α) (f : α → β) (i : Int) : (A.withData f).row i = (A.row i).map (fun e => (e.1, f e.2)) := by
  unfold Csr.row withData
  dsimp only
  split
  · rw [List.zip_map_right, List.map_take, List.map_drop]
    rfl
  · rfl

theorem Csr.column_withData {α β : Type} (A : Csr α) (f : α → β) (j : Int) : (A.withData f).column j = (A.column j).map (fun e => (e.1, f e.2)) := by
  unfold Csr.column
  rw [List.map_flatMap]
  congr 1
  funext i
  rw [row_withData, List.filter_map, List.map_map, List.map_map]
  rfl

theorem Csr.forRow_withData {α β σ : Type} (A : Csr α) (f : α → β) (i : Int) (s : σ) (body : Int → σ → Res σ) :
    (A.withData f).forRow i s body = A.forRow i s body := rfl

theorem Sim.imp {σ τ : Type} {R Q : σ → τ → Prop} {a : Res σ} {b : Res τ} (h : Sim R a b) (hq : ∀ s t, R s t → Q s t) : Sim Q a b := by
  cases a with
  | error e => exact h
  | ok s =>
    obtain ⟨t, ht, hr⟩ := h
    exact ⟨t, ht, hq _ _ hr⟩

section
variable [Zero V] (m : Mix T U V)

/-- Adding as the code does. -/
abbrev MixVal.add : Add (MixVal T U V) := ⟨MixVal.plus m⟩

theorem Csr.multM_sim (A : Csr T) (x : List U) (y : List V) :
    Sim (MixRel m) (A.multM m x y) (letI := MixVal.add m; (A.withData (MixVal.t : T → MixVal T U V)).mult (x.map MixVal.u) (y.map MixVal.v)) := by
  let _i := MixVal.add m
  show Sim _ _ (Csr.mult _ _ _)
  unfold Csr.multM Csr.mult
  rw [List.length_map, List.length_map]
  refine Sim.same (fun _ _ => Sim.same (fun _ _ => ?_))
  refine forUp_mirror ⟨by rw [List.map_map]; exact (List.map_id _).symm, ?_⟩ ?_
  · intro e he
    obtain ⟨c, _, rfl⟩ := List.mem_map.1 he
    trivial
  · intro i y w _ _ h
    rw [Csr.forRow_withData]
    refine Sim.bind (R := fun c e => c = e.val m ∧ e.Good) (Csr.forRow_sim' ⟨rfl, trivial⟩ ?_) (fun c e hc => h.vwr i hc.1 hc.2)
    intro j c e hc
    show Sim _ _ (rd (A.data.map _) j >>= _)
    rw [rd_map]
    refine Sim.bind (R := fun a b => b = MixVal.t a) ?_ (fun a b hb => Sim.same (fun k _ => ?_))
    · cases rd A.data j with
      | error e => exact rfl
      | ok a => exact ⟨_, rfl, rfl⟩
    · rw [vrd_map]
      refine Sim.bind (R := fun a b => b = MixVal.u a) ?_ (fun a' b' hb' => ?_)
      · cases vrd x k with
        | error e => exact rfl
        | ok a => exact ⟨_, rfl, rfl⟩
      · rw [hb, hb']
        refine Sim.ok ⟨?_, trivial⟩
        show _ = m.acc (e.val m) a a'
        rw [hc.1]

theorem Csr.multATM_sim (A : Csr T) (x : List U) (y : List V) :
    Sim (MixRel m) (A.multATM m x y) (letI := MixVal.add m; (A.withData (MixVal.t : T → MixVal T U V)).multAT (x.map MixVal.u) (y.map MixVal.v)) := by
  let _i := MixVal.add m
  show Sim _ _ (Csr.multAT _ _ _)
  unfold Csr.multATM Csr.multAT
  rw [List.length_map, List.length_map]
  refine Sim.same (fun _ _ => Sim.same (fun _ _ => ?_))
  refine forUp_mirror (MixRel.replicate m _) ?_
  intro i y w _ _ h
  rw [Csr.forRow_withData]
  refine Csr.forRow_sim' h ?_
  intro j y w h
  refine Sim.same (fun k _ => ?_)
  show Sim _ _ (rd (A.data.map _) j >>= _)
  rw [rd_map]
  refine Sim.bind (R := fun a b => b = MixVal.t a) ?_ (fun a b hb => ?_)
  · cases rd A.data j with
    | error e => exact rfl
    | ok a => exact ⟨_, rfl, rfl⟩
  · rw [vrd_map]
    refine Sim.bind (R := fun a b => b = MixVal.u a) ?_ (fun a' b' hb' => ?_)
    · cases vrd x i with
      | error e => exact rfl
      | ok a => exact ⟨_, rfl, rfl⟩
    · refine Sim.bind (h.vrd k) (fun c e hc => h.vwr k ?_ ?_)
      · rw [hb, hb', hc.1]
        rfl
      · rw [hb, hb']
        trivial

/-- A matrix of results and the values it was made from. -/
def MixRelM (P : Csr V) (Q : Csr (MixVal T U V)) : Prop := P = Q.withData (MixVal.val m) ∧ ∀ e ∈ Q.data, e.Good

theorem Csr.ofArrays_sim {p ix : List Int} {dt : List V} {w : List (MixVal T U V)} {r c : Int} (h : MixRel m dt w) :
    Sim (MixRelM m) (Csr.ofArrays p ix dt r c) (Csr.ofArrays p ix w r c) := by
  unfold Csr.ofArrays
  rw [show dt.length = w.length from by rw [h.1, List.length_map]]
  refine Sim.same (fun _ _ => Sim.same (fun _ _ => Sim.same (fun _ _ => Sim.same (fun _ _ => Sim.same (fun _ _ => Sim.same (fun _ _ => ?_))))))
  have fin : Sim (MixRelM m) (.ok ⟨r, c, p, ix, dt⟩) (.ok ⟨r, c, p, ix, w⟩) := Sim.ok ⟨by rw [h.1]; rfl, h.2⟩
  split
  · exact Sim.same (fun _ _ => Sim.same (fun _ _ => fin))
  · exact fin

theorem Csr.multSparseMarkerM_sim (A : Csr T) (B : Csr U) (marker : List Int) :
    Sim (MixRelM m) (A.multSparseMarkerM m B marker)
      (letI := MixVal.add m; (A.withData (MixVal.t : T → MixVal T U V)).multSparseMarker (B.withData MixVal.u) marker) := by
  let _i := MixVal.add m
  show Sim _ _ (Csr.multSparseMarker _ _ _)
  unfold Csr.multSparseMarkerM Csr.multSparseMarker
  refine Sim.same (fun _ _ => Sim.same (fun p0 _ => Sim.same (fun p1 _ => ?_)))
  refine Sim.same (fun st _ => Sim.same (fun ix _ => ?_))
  refine Sim.bind (MixRel.mkVec m _) (fun dt w hdt => ?_)
  refine Sim.bind (R := fun (a : List Int × Int × List Int × List V) (b : List Int × Int × List Int × List (MixVal T U V)) =>
    a.1 = b.1 ∧ a.2.1 = b.2.1 ∧ a.2.2.1 = b.2.2.1 ∧ MixRel m a.2.2.2 b.2.2.2) (forUp_mirror ⟨rfl, rfl, rfl, hdt⟩ ?_) ?_
  · rintro i ⟨mk, tot, ix, dt⟩ ⟨mk', tot', ix', w⟩ _ _ ⟨h1, h2, h3, h4⟩
    dsimp only at h1 h2 h3 h4
    subst h1 h2 h3
    rw [Csr.forRow_withData]
    refine Csr.forRow_sim' (R := fun (a : List Int × Int × List Int × List V) (b : List Int × Int × List Int × List (MixVal T U V)) =>
      a.1 = b.1 ∧ a.2.1 = b.2.1 ∧ a.2.2.1 = b.2.2.1 ∧ MixRel m a.2.2.2 b.2.2.2) ⟨rfl, rfl, rfl, h4⟩ ?_
    intro j s t hst
    refine Sim.same (fun l _ => ?_)
    rw [Csr.forRow_withData]
    refine Csr.forRow_sim' hst ?_
    rintro k ⟨mk, tot1, ix, dt⟩ ⟨mk', tot', ix', w⟩ ⟨h1, h2, h3, h4⟩
    dsimp only at h1 h2 h3 h4
    subst h1 h2 h3
    refine Sim.same (fun c _ => Sim.same (fun mkc _ => ?_))
    show Sim _ _ (rd (A.data.map _) j >>= _)
    rw [rd_map]
    refine Sim.bind (R := fun a b => b = MixVal.t a) ?_ (fun a b hb => ?_)
    · cases rd A.data j with
      | error e => exact rfl
      | ok a => exact ⟨_, rfl, rfl⟩
    · show Sim _ _ (rd (B.data.map _) k >>= _)
      rw [rd_map]
      refine Sim.bind (R := fun a b => b = MixVal.u a) ?_ (fun a' b' hb' => ?_)
      · cases rd B.data k with
        | error e => exact rfl
        | ok a => exact ⟨_, rfl, rfl⟩
      · rw [hb, hb']
        split
        · refine Sim.same (fun mk2 _ => Sim.same (fun ix2 _ => Sim.bind (h4.wr _ (e := .p a a') rfl trivial) (fun d2 w2 h2 => Sim.ok ⟨rfl, rfl, rfl, h2⟩)))
        · refine Sim.bind (h4.rd mkc) (fun old e hold => Sim.bind (h4.wr _ (e := MixVal.plus m e (.p a a')) ?_ trivial) (fun d2 w2 h2 => Sim.ok ⟨rfl, rfl, rfl, h2⟩))
          show _ = m.acc (e.val m) a a'
          rw [hold.1]
  · rintro ⟨mk, tot, ix, dt⟩ ⟨mk', tot', ix', w⟩ ⟨h1, h2, h3, h4⟩
    dsimp only at h1 h2 h3 h4
    subst h1 h2 h3
    exact Csr.ofArrays_sim m h4

theorem Csr.multSparseM_sim (A : Csr T) (B : Csr U) :
    Sim (MixRelM m) (A.multSparseM m B)
      (letI := MixVal.add m; (A.withData (MixVal.t : T → MixVal T U V)).multSparse (B.withData MixVal.u)) := by
  let _i := MixVal.add m
  show Sim _ _ (Csr.multSparse _ _)
  unfold Csr.multSparseM Csr.multSparse
  exact Sim.same (fun mk _ => Csr.multSparseMarkerM_sim m A B mk)

end

end Linalg
