import Verif.Model.Run

/-!
# A run that starts from the user's particles

`Tracking.track(recprof, init_distr=...)`, `physical_to_coords`, `ready_for_tomography`, `Tomography(...).run(niter)`: the calls of
`tomo_run.py:113-129` with particles given by the user.  Generic in the arithmetic.  Filtering and the conversion to integers only
compare and truncate numbers, which is exact in any arithmetic; `ready` is their model.
-/

namespace Verif.Run
open Verif.Mch Verif.Psi Verif.Part

variable {K : Type _} [Add K] [Sub K] [Mul K] [Zero K] [One K] [NatCast K] [LT K] [LE K] [DecidableLT K] [DecidableLE K]
  [DecidableEq K] [FDiv K]

/-- tracking.py:59-214 with `init_distr`, then particles.py:287-349: the phase-space coordinates of the particles in all
profiles -/
def userCoords (sin : K → K) (tm : Track.Mach K) (a : Area K) (xorigin dEbin : K) (nprofiles recprof deltaturn : Int)
    (dphi denergy : List K) : M (Arr2 K × Arr2 K) := do
  let (xp, yp) ← Track.trackArray sin 0 tm nprofiles a.dturns recprof deltaturn dphi denergy
  physicalToCoords a xorigin dEbin ⟨dphi.length, xp⟩ ⟨dphi.length, yp⟩

/-- then particles.py:352-403 and tomography.py:357-403: the bins of the particles and the reconstruction -/
def fromDistribution (sin sqrt : K → K) (ready : Arr2 K → Arr2 K → Nat → M (Arr2 Int × Arr2 Int)) (tm : Track.Mach K) (a : Area K)
    (xorigin dEbin : K) (nprofiles recprof deltaturn : Int) (dphi denergy : List K) (wf : Arr2 K) (niter : Nat) :
    M ((Arr2 Int × Arr2 Int) × TomoOut K) := do
  let (x, y) ← userCoords sin tm a xorigin dEbin nprofiles recprof deltaturn dphi denergy
  let (x, y) ← ready x y a.nbins
  let o ← tomogram sqrt wf x y niter
  pure ((x, y), o)

end Verif.Run
