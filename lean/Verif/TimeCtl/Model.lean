import Verif.Base
import Mathlib.Algebra.Order.Field.Basic

/-!
# Model of `TimeControl` (src/lib/FESolver.h:27-57, src/lib/FESolver.cpp:14-116)

`double` is replaced by an ordered field (exact arithmetic); the `uint16` counters are kept modulo 65536. Logging is not
modelled, except that a failing `DCHECK` is the outcome `assert`.
-/

namespace Nla3d.TimeCtl

/-- `uint16` arithmetic. C++ language, for src/lib/FESolver.cpp:34-64. -/
def u16 (n : Nat) : Nat := n % 65536

/-- The members of `TimeControl`. src/lib/FESolver.h:48-56 -/
structure TimeControl (K : Type) where
  converged : List K
  eqSteps : List Nat
  curEq : Nat
  totalEq : Nat
  delta : K
  endTime : K
  startTime : K
  time : K

variable {K : Type} [Field K] [LinearOrder K]

/-- A default constructed `TimeControl`. src/lib/FESolver.h:48-56 -/
def TimeControl.fresh : TimeControl K := ⟨[], [], 0, 0, 0, 1, 0, 0⟩

/-- `setEndTime`. src/lib/FESolver.cpp:105-109 -/
def TimeControl.setEndTime (c : TimeControl K) (t : K) : TimeControl K := { c with endTime := t }

/-- `setStartTime`. src/lib/FESolver.cpp:112-116 -/
def TimeControl.setStartTime (c : TimeControl K) (t : K) : TimeControl K := { c with startTime := t }

/-- `getCurrentStep`. src/lib/FESolver.cpp:14-16 -/
def TimeControl.currentStep (c : TimeControl K) : Nat := u16 (c.converged.length + 1)

/-- `getNumberOfConvergedSteps`. src/lib/FESolver.cpp:19-21 -/
def TimeControl.nConverged (c : TimeControl K) : Nat := u16 c.converged.length

/-- `getCurrentNormalizedTime`. src/lib/FESolver.cpp:72-74 -/
def TimeControl.normalized (c : TimeControl K) : K := (c.time - c.startTime) / (c.endTime - c.startTime)

/-- `getCurrentTimeDelta`. src/lib/FESolver.cpp:87-93 -/
def TimeControl.currentDelta (c : TimeControl K) : K := if c.curEq = 1 then c.delta else 0

/-- `getCurrentNormalizedTimeDelta`. src/lib/FESolver.cpp:96-102 -/
def TimeControl.normalizedDelta (c : TimeControl K) : K :=
  if c.curEq = 1 then c.delta / (c.endTime - c.startTime) else 0

/-- The bookkeeping at the beginning of `nextStep`. src/lib/FESolver.cpp:35-38 -/
def TimeControl.record (c : TimeControl K) : TimeControl K :=
  if 0 < c.curEq then { c with eqSteps := c.eqSteps ++ [c.curEq], converged := c.converged ++ [c.time] } else c

/-- The increment chosen by `nextStep`. src/lib/FESolver.cpp:43-49 -/
def choose (time endTime delta : K) : K :=
  if endTime ≤ time + delta then endTime - time
  else if endTime ≤ time + 2 * delta then (endTime - time) / 2
  else delta

/-- `nextStep`. src/lib/FESolver.cpp:34-56 -/
def TimeControl.nextStep (c : TimeControl K) (delta : K) : Res (Bool × TimeControl K) :=
  let c := c.record
  if c.endTime ≤ c.time then .ok (false, c)
  else
    let d := choose c.time c.endTime delta
    if 0 < d then .ok (true, { c with delta := d, time := c.time + d, curEq := 0 })
    else .assert

/-- `nextEquilibriumStep`. src/lib/FESolver.cpp:59-64 -/
def TimeControl.nextEquilibriumStep (c : TimeControl K) : TimeControl K :=
  { c with curEq := u16 (c.curEq + 1), totalEq := u16 (c.totalEq + 1) }

end Nla3d.TimeCtl
