import Verif.Model.TrackObj
import Verif.Spec.Run

/-! # Specification: a tracker and what was done with it before -/

namespace Verif.TrkO
open Verif.Mch Verif.Psi

variable {K : Type} [Field K] [LinearOrder K] [FloorRing K]

/-- the machine after a history -/
def machAfter (m : Run.Mach K) : List (Op K) → Run.Mach K
  | [] => m
  | .machine m' :: os => machAfter m' os
  | _ :: os => machAfter m os

/-- origin and height of a bin of the reconstruction area of a machine, if it can be found -/
def areaOf (L : MathLib K) (m : Run.Mach K) : Option (K × K) :=
  match findLimits L m.toArea with
  | .ok (xorigin, dEbin, _) => some (xorigin, dEbin)
  | .error _ => none

/-- does this call look for the area of the machine? -/
def searches (m : Run.Mach K) : Op K → Bool
  | .create _ _ => true
  | .auto _ r d => match Track.trackCheck m.nprofiles m.dturns r d with
    | .ok _ => true
    | .error _ => false
  | _ => false

/-- origin and height of a bin after a history: those of the machine at the last search that found an area -/
def areaAfter (L : MathLib K) (m : Run.Mach K) (a : Option (K × K)) : List (Op K) → Option (K × K)
  | [] => a
  | .machine m' :: os => areaAfter L m' a os
  | o :: os => areaAfter L m (if searches m o then (areaOf L m).orElse (fun _ => a) else a) os

/-- the tables of the self fields after a history -/
def fieldsAfter (s : Option (K × List (List K))) : List (Op K) → Option (K × List (List K))
  | [] => s
  | .selfFields (some w) (some v) :: os => fieldsAfter (some (w, v)) os
  | _ :: os => fieldsAfter s os

/-- a tracker made just now on a machine, with self fields if there are any -/
def made (m : Run.Mach K) (s : Option (K × List (List K))) : Trk K :=
  { fresh m with phiwrap := s.map Prod.fst, vself := s.map Prod.snd, selfFlag := s.isSome }

end Verif.TrkO
