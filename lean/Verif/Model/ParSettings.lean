import Verif.Model.Width
import Mathlib.Algebra.Order.Floor.Defs
import Mathlib.Data.Rat.Floor

/-!
# What hypre is told by the constructors and setters of its solvers (modules/parlinalgcpp/src/parsolvers.cpp)

A solver of the library has parameters, and what it applies is made from them when it is set up.  Only the parameters that this code sets are here.
A `double` is a rational number, `HYPRE_Int` is an `int` of 32 bits and `HYPRE_Real` a `double`.
-/

namespace Linalg
open Cpp

namespace HParams

/-- A `size_t` as an `int`. -/
def ofSize (n : Nat) : Int := castInt intMax n

/-- A `double` as an `int`: the fraction is dropped; undefined when the result does not fit. -/
def ofDouble (x : ℚ) : Res Int := fit intMax (if 0 ≤ x then ⌊x⌋ else ⌈x⌉)

/-- A `bool` as an `int`. -/
def ofBool (b : Bool) : Int := if b then 1 else 0

/-- A solver of the library: its parameters, and those it was last set up with. -/
structure Handle (P : Type) where
  now : P
  built : Option P

/-- `HypreSetup()` (modules/parlinalgcpp/src/parsolvers.cpp:88-94). -/
def Handle.setup {P : Type} (h : Handle P) : Handle P := { h with built := some h.now }

/-! ## BoomerAMG -/

/-- The parameters set by `BoomerAMG`. -/
structure Amg where
  coarsenType : Int
  aggLevels : Int
  relaxType : Int
  sweeps : Int
  threshold : ℚ
  interpType : Int
  pMax : Int
  maxLevels : Int
  printLevel : Int
  maxIter : Int
  tol : ℚ
  deriving DecidableEq

/-- `BoomerAMG(ParMatrix A, size_t max_iter, double tol, bool verbose)` (modules/parlinalgcpp/src/parsolvers.cpp:111-143); `d`: what the library
starts from. -/
def boomer (d : Amg) (maxIter : Nat) (tol : ℚ) (verbose : Bool) : Handle Amg :=
  let h : Handle Amg := ⟨d, none⟩
  let h := { h with now := { h.now with coarsenType := 10 } }
  let h := { h with now := { h.now with aggLevels := 1 } }
  let h := { h with now := { h.now with relaxType := 8 } }
  let h := { h with now := { h.now with sweeps := 1 } }
  let h := { h with now := { h.now with threshold := 1 / 4 } }
  let h := { h with now := { h.now with interpType := 6 } }
  let h := { h with now := { h.now with pMax := 4 } }
  let h := { h with now := { h.now with maxLevels := 25 } }
  let h := { h with now := { h.now with printLevel := if verbose then 2 else 0 } }
  let h := { h with now := { h.now with maxIter := ofSize maxIter } }
  let h := { h with now := { h.now with tol := tol } }
  h.setup

/-! ## ParaSails -/

/-- The parameters set by `ParaSails`. -/
structure Sails where
  threshold : ℚ
  levels : Int
  filter : ℚ
  sym : Int
  loadBal : ℚ
  reuse : Int
  logging : Int
  deriving DecidableEq

/-- `SetFilter(double filter)` (modules/parlinalgcpp/src/parsolvers.cpp:212-215). -/
def setFilter (x : ℚ) (h : Handle Sails) : Handle Sails := { h with now := { h.now with filter := x } }
/-- `SetSym(int sym)` (modules/parlinalgcpp/src/parsolvers.cpp:217-220). -/
def setSym (x : Int) (h : Handle Sails) : Handle Sails := { h with now := { h.now with sym := x } }
/-- `SetLoadBal(int load_bal)` (modules/parlinalgcpp/src/parsolvers.cpp:222-225). -/
def setLoadBal (x : Int) (h : Handle Sails) : Handle Sails := { h with now := { h.now with loadBal := x } }
/-- `SetReuse(int reuse)` (modules/parlinalgcpp/src/parsolvers.cpp:227-230). -/
def setReuse (x : Int) (h : Handle Sails) : Handle Sails := { h with now := { h.now with reuse := x } }
/-- `SetLogging(int logging)` (modules/parlinalgcpp/src/parsolvers.cpp:232-235). -/
def setLogging (x : Int) (h : Handle Sails) : Handle Sails := { h with now := { h.now with logging := x } }

/-- `ParaSails(ParMatrix A, bool verbose, int reuse, int sym, double load_bal, double threshold, double filter, int max_levels)`
(modules/parlinalgcpp/src/parsolvers.cpp:168-188). -/
def sails (d : Sails) (verbose : Bool) (reuse sym : Int) (loadBal threshold filter : ℚ) (levels : Int) : Res (Handle Sails) := do
  let h : Handle Sails := ⟨{ d with threshold := threshold, levels := levels }, none⟩
  let h := setFilter filter h
  let h := setSym sym h
  let b ← ofDouble loadBal
  let h := setLoadBal b h
  let h := setReuse reuse h
  let h := setLogging (ofBool verbose) h
  .ok h.setup

/-- A call of a setter. -/
inductive SailsSet
  | filter (x : ℚ)
  | sym (x : Int)
  | loadBal (x : Int)
  | reuse (x : Int)
  | logging (x : Int)

/-- What the call does. -/
def SailsSet.run : SailsSet → Handle Sails → Handle Sails
  | .filter x => setFilter x
  | .sym x => setSym x
  | .loadBal x => setLoadBal x
  | .reuse x => setReuse x
  | .logging x => setLogging x

/-! ## ParCG -/

/-- The parameters set by `ParCG`. -/
structure Cg where
  tol : ℚ
  maxIter : Int
  printLevel : Int
  deriving DecidableEq

/-- `ParCG(ParMatrix A, size_t max_iter, double tol, bool verbose)` (modules/parlinalgcpp/src/parsolvers.cpp:237-250). -/
def cg (d : Cg) (maxIter : Nat) (tol : ℚ) (verbose : Bool) : Handle Cg :=
  let h : Handle Cg := ⟨d, none⟩
  let h := { h with now := { h.now with tol := tol } }
  let h := { h with now := { h.now with maxIter := ofSize maxIter } }
  let h := { h with now := { h.now with printLevel := ofBool verbose } }
  h.setup

end HParams
end Linalg
