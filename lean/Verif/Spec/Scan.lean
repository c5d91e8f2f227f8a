import Verif.Model.Scan

/-!
# What a scan is expected to do
-/

namespace Verif.Scan
open Verif.Mch Verif.MObj Verif.Obj

section
variable {K : Type _} [Field K] [LinearOrder K] [FloorRing K]

/-- The machine has the given settings: every attribute but the size of the energy bins, which the tracking computes. -/
def SameSettings (o o' : Dict K) : Prop := ∀ k, k ≠ "dEbin" → getattr o k = getattr o' k

/-- As `o`, with another value of one attribute. -/
def WithValue (o : Dict K) (name : String) (v : Val K) (o' : Dict K) : Prop :=
  getattr o' name = .ok v ∧ ∀ k, k ≠ "dEbin" → k ≠ name → getattr o' k = getattr o k

/-- new objects: a machine with these attributes whose arrays are not computed yet, and a `Tomography` object on the stored waterfall -/
def fresh (o : Dict K) (wf : List K) (nprofs nbins : Nat) : Session K := ⟨o, none, new wf nprofs nbins⟩

/-- the attributes the arrays are computed from -/
def arrayAttrs : List String :=
  ["dturns", "nprofiles", "machine_ref_frame", "h_num", "h_ratio", "b0", "mean_orbit_rad", "bending_rad", "e_rest", "vrf1", "vrf1dot",
   "vrf2", "vrf2dot", "phi12", "q", "bdot", "trans_gamma"]

/-- the arrays of the machine are those of its attributes -/
def UpToDate (L : MathLib K) (s : Session K) : Prop :=
  ∃ a out, argsOf s.attrs = .ok a ∧ valuesAtTurns L a = .ok out ∧ s.arrays = some out

/-- the results without the values for which an exception was raised; undefined behaviour ends the scan -/
def successes {A B : Type _} (f : A → M B) : List A → M (List (A × B))
  | [] => .ok []
  | v :: vs =>
    match f v with
    | .ok d => (successes f vs).map ((v, d) :: ·)
    | .error (.exc _) => successes f vs
    | .error e => .error e

end
end Verif.Scan
