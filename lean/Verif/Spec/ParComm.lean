import Verif.Spec.Par
import Verif.Model.ParTranspose

/-!
# What a communication package means

`hypre_MatvecCommPkgCreate` works out, for every process, which elements of its column map belong to which process, and which of its
own columns the others need.  This is the contract; nothing is said about the order of the processes.
-/

namespace Linalg
open Cpp

variable {α : Type}

/-- The starts of consecutive groups. -/
def Par.startsOf {β : Type} (ls : List (List β)) : List Int :=
  (List.range (ls.length + 1)).map (fun k => (((ls.take k).map List.length).sum : Int))

/-- `recv p` lists, for every process `p` receives from, the local numbers of the columns on that process, in the order of the column map
of `p`; `send q` lists, for every process `q` sends to, the own columns it sends. -/
structure Par.IsComm (pkgs : List Par.CommPkg) (Ms : List (ParMat α)) (co : List Int) (recv send : Nat → List (Int × List Int)) : Prop where
  len : pkgs.length = Ms.length
  recv_procs : ∀ (p : Nat) (h : p < pkgs.length), pkgs[p].recvProcs = (recv p).map Prod.fst
  recv_starts : ∀ (p : Nat) (h : p < pkgs.length), pkgs[p].recvStarts = Par.startsOf ((recv p).map Prod.snd)
  send_procs : ∀ (p : Nat) (h : p < pkgs.length), pkgs[p].sendProcs = (send p).map Prod.fst
  send_starts : ∀ (p : Nat) (h : p < pkgs.length), pkgs[p].sendStarts = Par.startsOf ((send p).map Prod.snd)
  send_elmts : ∀ (p : Nat) (h : p < pkgs.length), pkgs[p].sendElmts = ((send p).map Prod.snd).flatten
  col_map : ∀ (p : Nat) (h : p < Ms.length), Ms[p].colMap = ((recv p).map (fun x => x.2.map (vecAt co x.1 + ·))).flatten
  recv_nodup : ∀ p < Ms.length, ((recv p).map Prod.fst).Nodup
  send_nodup : ∀ p < Ms.length, ((send p).map Prod.fst).Nodup
  recv_owned : ∀ p < Ms.length, ∀ x ∈ recv p, (0 ≤ x.1 ∧ x.1 < Ms.length) ∧ ∀ c ∈ x.2, 0 ≤ c ∧ c < vecAt co (x.1 + 1) - vecAt co x.1
  send_range : ∀ q < Ms.length, ∀ x ∈ send q, 0 ≤ x.1 ∧ x.1 < Ms.length
  matching : ∀ (p q : Nat) (l : List Int), p < Ms.length → q < Ms.length → (((q : Int), l) ∈ recv p ↔ ((p : Int), l) ∈ send q)

/-- The packages fit the distributed matrix. -/
def Par.IsCommPkg (pkgs : List Par.CommPkg) (Ms : List (ParMat α)) (co : List Int) : Prop :=
  ∃ recv send, Par.IsComm pkgs Ms co recv send

/-- The contract of `hypre_ParCSRMatrixExtractBExt` for every distributed matrix and every share whose column map numbers rows of it. -/
def Par.IsExtractor {R : Type} [AddCommMonoid R] (extract : List (ParMat R) → ParMat R → Csr R) : Prop :=
  ∀ (Bs : List (ParMat R)) (ro co : List Int), Par.IsDist Bs ro co → ∀ A : ParMat R,
    (∀ k ∈ A.colMap, 0 ≤ k ∧ k < vecAt ro Bs.length) → Par.IsExtract extract Bs (vecAt co Bs.length) A

end Linalg
