import Verif.Model.Tracking
import Verif.Model.Tomography

/-!
# Which arrays are written in place

A store of arrays: an address is a position in the list, `alloc` makes a new array.  Only the operations that create, alias
or overwrite arrays are modelled here; the values come from the functional models.
-/

namespace Verif.Mem

/-- numpy arrays in memory -/
abbrev Heap (K : Type _) := List (List K)

/-- a new array -/
def alloc {K : Type _} (h : Heap K) (v : List K) : Heap K × Int := (h ++ [v], (h.length : Int))

section track
variable {α : Type _} [Add α] [Sub α] [Mul α]

/-- what `track` leaves behind in the tracker: addresses of `particles.coordinates_dphi_denergy`, `init_dphi`,
`init_denergy` -/
structure Tracker where
  partDphi : Int
  partDenergy : Int
  initDphi : Int
  initDenergy : Int
  deriving DecidableEq, Repr

/-- tracking.py:135-214 `Tracking.track` on arrays in memory, `init_distr = (uphi, uen)` given by the user.
`conf.cast(init_distr)` (tomo_config.py:212-226: `np.array(..., dtype)`) makes a new array of two rows, which
`coordinates_dphi_denergy` hands out (particles.py:405-420); lines 183-184 make two copies; the C++ code then works in place
on the two rows (`d_array` arguments of the right dtype are not copied, libtomo.cpp:284-285).  `phi12` is an
array here; the wrapper for a scalar `phi12` only adds an array of its own (and reads it out of bounds, see C24). -/
def trackMem (sin : α → α) (zero : α) (m : Track.Mach α) (nprofiles dturns recprof deltaturn : Int)
    (h : Heap α) (uphi uen : Int) : M (Heap α × Tracker × List (List α) × List (List α)) :=
  match Track.trackCheck nprofiles dturns recprof deltaturn with
  | .error e => .error (.exc e)
  | .ok r => do
    let dphi ← rd h uphi
    let denergy ← rd h uen
    if dphi.length ≠ denergy.length then .error (.exc .valueError)
    else do
      let (h, a) := alloc h dphi
      let (h, b) := alloc h denergy
      let (h, c) := alloc h dphi
      let (h, d) := alloc h denergy
      let n := dphi.length
      let z := List.replicate nprofiles.toNat (List.replicate n zero)
      let x ← rd h a
      let y ← rd h b
      let s ← Track.kickAndDrift sin z z y x m dturns r deltaturn (dturns * (nprofiles - 1)) n
      let h ← upd h a s.dphi
      let h ← upd h b s.denergy
      pure (h, ⟨a, b, c, d⟩, s.xp, s.yp)

end track

section tomo
variable {α : Type _} [Add α] [Sub α] [Mul α] [Zero α] [One α] [NatCast α]
  [LT α] [LE α] [DecidableLT α] [DecidableLE α] [DecidableEq α] [FDiv α]

/-- __tomography.py:55-58 the constructor on arrays in memory: `conf.cast` copies, `.clip(0.0)` copies, `/=` works in place
on the clipped copy.  Returns the address of the stored waterfall. -/
def tomoInitMem (h : Heap α) (wf : Int) (nprof nbins : Nat) : M (Heap α × Int) := do
  let v ← rd h wf
  let (h, c) := alloc h v
  let v ← rd h c
  let (h, d) := alloc h (Tomo.npClip0 v)
  let v ← rd h d
  let v ← Tomo.normalizeProfiles v nprof nbins
  let h ← upd h d v
  pure (h, d)

end tomo
end Verif.Mem
