import Verif.Model.Cuda

/-!
# The GPU tracking kernels as threads sharing the device memory

cuda_kernels/kick_and_drift.cu and the launches of python_routines/kick_and_drift_cuda.py.  The device arrays `xp`, `yp` of shape
`(nprofiles, n)` are the locations `.xp 0`, `.yp 0`, row after row.  The arrays of the machine are `const … __restrict__` and are not
written by anybody; they are parameters here, and a thread that reads outside of them stops.  Loop fuel: the number of turns.
-/

namespace Verif.Cuda
open Verif.Par Verif.Omp Verif.Track

section
variable {α : Type} [Add α] [Sub α] [Mul α]

/-! ## Whole loop -/

/-- kick_and_drift.cu:161-164: registers after one turn upwards -/
def upRegs (sin : α → α) (m : Mach α) (turn : Int) (p e : α) : M (α × α) := do
  let coef ← rd m.driftCoef turn
  let v1 ← rd m.rf1v (turn + 1)
  let v2 ← rd m.rf2v (turn + 1)
  let p0 ← rd m.phi0 (turn + 1)
  let p12 ← rd m.phi12 (turn + 1)
  let acc ← rd m.deltaE0 (turn + 1)
  let p := p - coef * e
  pure (p, e + energyGain sin v1 v2 p0 p12 m.hratio acc p)

/-- kick_and_drift.cu:204-207: registers after one turn downwards -/
def downRegs (sin : α → α) (m : Mach α) (turn : Int) (p e : α) : M (α × α) := do
  let v1 ← rd m.rf1v turn
  let v2 ← rd m.rf2v turn
  let p0 ← rd m.phi0 turn
  let p12 ← rd m.phi12 turn
  let acc ← rd m.deltaE0 turn
  let coef ← rd m.driftCoef (turn - 1)
  let e := e - energyGain sin v1 v2 p0 p12 m.hratio acc p
  pure (p + coef * e, e)

/-- kick_and_drift.cu:166-171, 209-214: both registers are written to the row `profile`, then `k` -/
def putBoth (n tid : Nat) (profile : Int) (p e : α) (k : Thread α) : Thread α :=
  st (.xp 0) ((n : Int) * profile + tid) p <| st (.yp 0) ((n : Int) * profile + tid) e k

/-- kick_and_drift.cu:158-172 -/
def upLoop (sin : α → α) (m : Mach α) (dturns nturns : Int) (n tid : Nat) : Nat → α → α → Int → Int → Thread α
  | 0, _, _, _, _ => .done
  | fuel + 1, p, e, profile, turn =>
    if turn < nturns then
      match upRegs sin m turn p e with
      | .error _ => .done
      | .ok (p, e) =>
        if (turn + 1).tmod dturns = 0 then
          putBoth n tid (profile + 1) p e (upLoop sin m dturns nturns n tid fuel p e (profile + 1) (turn + 1))
        else upLoop sin m dturns nturns n tid fuel p e profile (turn + 1)
    else .done

/-- kick_and_drift.cu:202-215 -/
def downLoop (sin : α → α) (m : Mach α) (dturns : Int) (n tid : Nat) : Nat → α → α → Int → Int → Thread α
  | 0, _, _, _, _ => .done
  | fuel + 1, p, e, profile, turn =>
    if 0 < turn then
      match downRegs sin m turn p e with
      | .error _ => .done
      | .ok (p, e) =>
        if (turn - 1).tmod dturns = 0 then
          putBoth n tid (profile - 1) p e (downLoop sin m dturns n tid fuel p e (profile - 1) (turn - 1))
        else downLoop sin m dturns n tid fuel p e profile (turn - 1)
    else .done

/-- kick_and_drift.cu:151-156, 195-200: the guard and the two registers, then the loop -/
def trackThread (n : Nat) (loop : Nat → α → α → Thread α) (tid : Nat) : Thread α :=
  if tid < n then ld .dphi (tid : Int) fun p => ld .denergy (tid : Int) fun e => loop tid p e else .done

/-- kick_and_drift.cu:135-174 `kick_drift_up_turns` -/
def upThread (sin : α → α) (m : Mach α) (dturns nturns : Int) (n : Nat) (profile turn : Int) (tid : Nat) : Thread α :=
  trackThread n (fun tid p e => upLoop sin m dturns nturns n tid (nturns - turn).toNat p e profile turn) tid

/-- kick_and_drift.cu:180-217 `kick_drift_down_turns` -/
def downThread (sin : α → α) (m : Mach α) (dturns : Int) (n : Nat) (profile turn : Int) (tid : Nat) : Thread α :=
  trackThread n (fun tid p e => downLoop sin m dturns n tid turn.toNat p e profile turn) tid

/-! ## Host -/

/-- kick_and_drift_cuda.py:65-66: `xp[profile] = cp.copy(dphi); yp[profile] = cp.copy(denergy)` -/
def hostPut (n : Nat) (profile : Int) (m : Memory α) : Memory α
  | .real a k =>
    if (n : Int) * profile ≤ k ∧ k < (n : Int) * profile + n then
      if a = .xp 0 then m (.real .dphi (k - n * profile))
      else if a = .yp 0 then m (.real .denergy (k - n * profile)) else m (.real a k)
    else m (.real a k)
  | x => m x

/-- kick_and_drift_cuda.py:78-79: `dphi = cp.copy(xp[rec_prof]); denergy = cp.copy(yp[rec_prof])`, new arrays -/
def hostGet (n : Nat) (profile : Int) (m : Memory α) : Memory α
  | .real a k =>
    if a = .dphi then m (.real (.xp 0) (n * profile + k))
    else if a = .denergy then m (.real (.yp 0) (n * profile + k)) else m (.real a k)
  | x => m x

/-- what a launch may leave: the memory of some interleaving of its threads, after all of them have ended -/
def Launched (pool : List (Thread α)) (m m' : Memory α) : Prop := ∃ s, Reach ⟨m, pool⟩ s ∧ Final s ∧ s.mem = m'

/-- kick_and_drift_cuda.py:39-83 `kick_and_drift_cuda`, on the device memory -/
def Tracks (sin : α → α) (B : Nat) (m : Mach α) (phi12 : α) (dturns recProf deltaturn nturns : Int) (n : Nat) (m₀ m₁ : Memory α) : Prop :=
  let m := { m with phi12 := List.replicate (nturns + 1).toNat phi12 }
  let turn := recProf * dturns + deltaturn
  let profile := if deltaturn < 0 then recProf - 1 else recProf
  ∃ m', Launched (grid (gridSize n B) B (upThread sin m dturns nturns n profile turn)) (hostPut n profile m₀) m' ∧
    if 0 < recProf then
      Launched (grid (gridSize n B) B (downThread sin m dturns n recProf (recProf * dturns))) (hostGet n recProf m') m₁
    else m₁ = m'

/-! ## Single steps (compiled, not launched by the package) -/

/-- kick_and_drift.cu:22-35 `kick_up`, 42-55 `kick_down`, 61-68 `drift_up`, 74-81 `drift_down`: the guard around the body of the
corresponding C++ loop -/
def stepThread (n : Nat) (body : Nat → Thread α) (tid : Nat) : Thread α := if tid < n then body tid else .done

/-- kick_and_drift.cu:87-105 `kick_drift_up_simultaneously` -/
def bothUpThread (sin : α → α) (coef rfv1 rfv2 phi0 phi12 hratio acc : α) (n tid : Nat) : Thread α :=
  if tid < n then
    ld .denergy (tid : Int) fun e => ld .dphi (tid : Int) fun p => st .dphi (tid : Int) (p - coef * e) <|
    ld .dphi (tid : Int) fun p => ld .denergy (tid : Int) fun e =>
    st .denergy (tid : Int) (e + energyGain sin rfv1 rfv2 phi0 phi12 hratio acc p) .done
  else .done

/-- kick_and_drift.cu:111-129 `kick_drift_down_simultaneously` -/
def bothDownThread (sin : α → α) (coef rfv1 rfv2 phi0 phi12 hratio acc : α) (n tid : Nat) : Thread α :=
  if tid < n then
    ld .dphi (tid : Int) fun p => ld .denergy (tid : Int) fun e =>
    st .denergy (tid : Int) (e - energyGain sin rfv1 rfv2 phi0 phi12 hratio acc p) <|
    ld .denergy (tid : Int) fun e => ld .dphi (tid : Int) fun p => st .dphi (tid : Int) (p + coef * e) .done
  else .done

end
end Verif.Cuda
