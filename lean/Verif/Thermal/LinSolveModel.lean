import Verif.Thermal.NetModel
import Mathlib.Algebra.BigOperators.Group.Finset.Basic
/-!
The choice of a linear solver: src/solver/thermal/network/ThermalNetworkSolver.h:34-99, src/basic/ECadSettings.h:431-456.

The factorisations and the iteration are those of the library (Eigen) from general knowledge, as neither its source nor its documentation was at hand: `SimplicialLLT` and `SimplicialLDLT` read the lower
triangle, reorder rows and columns alike, and eliminate one unknown after another; `SimplicialCholesky` is an `LDLT` unless told otherwise; `ConjugateGradient` starts at zero,
with the inverse of the diagonal as preconditioner, for at most twice as many rounds as there are unknowns, and stops when the square of the residual is below a threshold.

Simplifications: exact arithmetic; a division by zero is `none` (the code goes on with numbers that are none); so is a factorisation that fails, as the code does not ask
whether it succeeded and then uses what the library left there.  The vectors are functions of which the values at the nodes count.
-/
namespace Ecad.LinSolve
open Ecad.Thermal Finset

variable {K : Type} [Field K] [LinearOrder K]

/-- `EThermalNetworkStaticSolverType` (src/basic/ECadSettings.h:431-438) -/
inductive Kind | lu | cholesky | llt | ldlt | cg
  deriving DecidableEq

/-- the cases of the switch (src/solver/thermal/network/ThermalNetworkSolver.h:58-97); `none`: the default case -/
def kindOf (t : Int) : Option Kind :=
  if t = 0 then some .lu else if t = 1 then some .cholesky else if t = 2 then some .llt else if t = 3 then some .ldlt else if t = 10 then some .cg else none

/-- One unknown after another is eliminated (`SimplicialLLT`, `SimplicialLDLT`): `ok` says which pivots are accepted, `M` is read at and below the diagonal. -/
def elim (ok : K → Bool) : Nat → (Nat → Nat → K) → (Nat → K) → Option (Nat → K)
  | 0, _, _ => some fun _ => 0
  | n + 1, M, b =>
    if ok (M 0 0) then
      (elim ok n (fun i j => M (i + 1) (j + 1) - M (i + 1) 0 * M (j + 1) 0 / M 0 0) (fun i => b (i + 1) - M (i + 1) 0 * b 0 / M 0 0)).map fun y i =>
        match i with
        | 0 => (b 0 - ∑ j ∈ range n, M (j + 1) 0 * y j) / M 0 0
        | i + 1 => y i
    else none

/-- `SimplicialLLT`: the square roots of the pivots are taken, so that they have to be positive -/
def llt : Nat → (Nat → Nat → K) → (Nat → K) → Option (Nat → K) := elim fun d => decide (0 < d)

/-- `SimplicialLDLT`: the pivots must not be zero -/
def ldlt : Nat → (Nat → Nat → K) → (Nat → K) → Option (Nat → K) := elim fun d => decide (d ≠ 0)

/-- the entry of the lower triangle -/
def lower (M : Nat → Nat → K) (i j : Nat) : K := if j ≤ i then M i j else M j i

/-- a factorisation with rows and columns in the order `σ`, whose inverse is `τ` -/
def reordered (f : Nat → (Nat → Nat → K) → (Nat → K) → Option (Nat → K)) (σ τ : Nat → Nat) (n : Nat) (M : Nat → Nat → K) (b : Nat → K) : Option (Nat → K) :=
  (f n (fun i j => lower M (σ i) (σ j)) fun i => b (σ i)).map fun y i => y (τ i)

/-- scalar product -/
def dot (n : Nat) (u v : Nat → K) : K := ∑ i ∈ range n, u i * v i

/-- `DiagonalPreconditioner`: the inverse of a diagonal entry, one for an entry that is zero -/
def invDiag (M : Nat → Nat → K) (i : Nat) : K := if M i i = 0 then 1 else 1 / M i i

/-- the variables of the conjugate gradient iteration -/
structure CG (K : Type) where
  x : Nat → K
  r : Nat → K
  p : Nat → K
  abs : K

/-- the start: `x` is zero -/
def CG.init (n : Nat) (A : (Nat → K) → Nat → K) (d : Nat → K) (b : Nat → K) : CG K :=
  let r := fun i => b i - A (fun _ => 0) i
  ⟨fun _ => 0, r, fun i => d i * r i, dot n r fun i => d i * r i⟩

/-- the first half of a round: new `x` and residual -/
def CG.move (n : Nat) (A : (Nat → K) → Nat → K) (s : CG K) : CG K :=
  let a := s.abs / dot n s.p (A s.p)
  { s with x := fun i => s.x i + a * s.p i, r := fun i => s.r i - a * A s.p i }

/-- the second half: the next direction -/
def CG.turn (n : Nat) (d : Nat → K) (s : CG K) : CG K :=
  let abs := dot n s.r fun i => d i * s.r i
  { s with p := fun i => d i * s.r i + abs / s.abs * s.p i, abs := abs }

/-- the rounds, at most `left` of them; `none`: a division by zero -/
def CG.rounds (n : Nat) (A : (Nat → K) → Nat → K) (d : Nat → K) (thr : K) : Nat → CG K → Option (Nat → K)
  | 0, s => some s.x
  | left + 1, s =>
    if dot n s.p (A s.p) = 0 then none
    else
      let t := s.move n A
      if dot n t.r t.r < thr then some t.x
      else if t.abs = 0 then none
      else rounds n A d thr left (t.turn n d)

/-- `ConjugateGradient`; `tol` gives the threshold for the square of the residual from that of the right hand side -/
def conjugate (n : Nat) (A : (Nat → K) → Nat → K) (d : Nat → K) (tol : K → K) (b : Nat → K) : Option (Nat → K) :=
  if dot n b b = 0 then some fun _ => 0
  else
    let s := CG.init n A d b
    if dot n s.r s.r < tol (dot n b b) then some s.x
    else CG.rounds n A d (tol (dot n b b)) (2 * n) s

/-- what the library decides: the orders of the factorisations, the `SparseLU` solver, the threshold -/
structure Lib (K : Type) where
  lu : Nat → (Nat → Nat → K) → (Nat → K) → Option (Nat → K)
  perm : Nat → (Nat → Nat → K) → (Nat → Nat) × (Nat → Nat)
  tol : K → K

/-- `ThermalNetworkSolver::Solve` (src/solver/thermal/network/ThermalNetworkSolver.h:34-99) without the dumps; `L` is the identity (ThermalNetwork.h:310-313).  The
default case leaves `refT` in the result (56). -/
def solve (L : Lib K) (type : Int) (net : Network K) (refT : K) : Option (List K) :=
  let n := net.length
  let M := entry (gTriplets net)
  let b := systemRhs net true refT
  let σ := L.perm n M
  let x := match kindOf type with
    | some .lu => L.lu n M b
    | some .cholesky => reordered ldlt σ.1 σ.2 n M b
    | some .llt => reordered llt σ.1 σ.2 n M b
    | some .ldlt => reordered ldlt σ.1 σ.2 n M b
    | some .cg => conjugate n (mulVec (gTriplets net)) (invDiag M) L.tol b
    | none => some fun _ => refT
  x.map fun x => (List.range n).map x

end Ecad.LinSolve
