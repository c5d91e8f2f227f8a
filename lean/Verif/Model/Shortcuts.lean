import Verif.Model.RunFile

/-!
# Model of `shortcuts.py` and of `utils/tomo_output.py:show`

The functions share the machine and the waterfall returned by `read_input_file`, and change them: `track` stores the size of the
energy bins in the machine, `show` divides the profile it plots by its sum, in place.  A session is a list of such calls.
-/

namespace Verif.Short
open Verif.Mch Verif.Psi Verif.Part Verif.Run

/-- what the calls change: `machine.dEbin` (`None` in a new machine) and the waterfall -/
structure Sess (K : Type _) where
  dEbin : Option K
  waterfall : Arr2 K

section
variable {K : Type _} [Field K] [LinearOrder K] [FloorRing K]

/-- shortcuts.py:45-56 `track(machine, reconstruction_idx)`.  `int(None)` (assertions.py:673) raises a TypeError; `machine.dEbin`
is stored once the limits of the reconstructed area are known (particles.py:143-148). -/
def track (L : MathLib K) (m : Mach K) (past : K) (s : Sess K) (idx : Option Int) : Sess K × M (Arr2 Int × Arr2 Int) :=
  match newTracker m with
  | .error e => (s, .error e)
  | .ok _ =>
    match idx with
    | none => (s, .error (.exc .typeError))
    | some r =>
      match Track.trackCheck m.nprofiles m.dturns r 0 with
      | .error e => (s, .error (.exc e))
      | .ok _ =>
        match findLimits L m.toArea with
        | .error e => (s, .error e)
        | .ok (_, dE, _) => ({ s with dEbin := some dE }, trackCoords L m past r >>= fun t => ready t.xp t.yp m.nbins)

/-- shortcuts.py:59-66 `tomogram(waterfall, xp, yp, n_iter)`; the constructor copies the waterfall -/
def tomogram (L : MathLib K) (s : Sess K) (x y : Arr2 Int) (niter : Nat) : M (TomoOut K) := Run.tomogram L.sqrt s.waterfall x y niter

/-- data_treatment.py:119-160 `phase_space(tomo, machine, idx)`, then `clip(0)` and the division by the sum as in tomo_run.py:142-145 -/
def density (m : Mach K) (s : Sess K) (x y : Arr2 Int) (weights : List K) (idx : Int) : M (List K × List K × List K) := do
  let (tr, er, ps) ← Img.phaseSpace x y weights m.nbins m.synchPartX m.synchPartY m.dtbin s.dEbin idx
  let d ← normalise ps
  pure (tr, er, d)

/-- tomo_output.py:134 `rec_prof[:] /= np.sum(rec_prof)` for `rec_prof = waterfall[idx]`, a view.  Where the sum is zero numpy
fills the row with NaN and infinities; the model stops there. -/
def show_ (s : Sess K) (idx : Int) : M (Sess K) := do
  let row ← npGet s.waterfall.rows idx
  let row' ← row.mapM fun v => FDiv.fdiv v row.sum
  let k := if idx < 0 then idx + s.waterfall.rows.length else idx
  pure { s with waterfall := ⟨s.waterfall.cols, s.waterfall.rows.set k.toNat row'⟩ }

/-- a call made by the user -/
inductive Call (K : Type _)
  | track (idx : Option Int)
  | tomogram (x y : Arr2 Int) (niter : Nat)
  | density (x y : Arr2 Int) (weights : List K) (idx : Int)
  | show_ (idx : Int)

/-- what a call leaves behind; an exception raised by a call is caught by the user -/
def after (L : MathLib K) (m : Mach K) (past : K) (s : Sess K) : Call K → Sess K
  | .track idx => (track L m past s idx).1
  | .tomogram _ _ _ => s
  | .density _ _ _ _ => s
  | .show_ idx =>
    match show_ s idx with
    | .ok s' => s'
    | .error _ => s

/-- what a list of calls leaves behind -/
def session (L : MathLib K) (m : Mach K) (past : K) (s : Sess K) (cs : List (Call K)) : Sess K := cs.foldl (after L m past) s

/-- the session that does what `tomo_run.run` does: `read_input_file`, any calls, `track`, `tomogram`, `phase_space` -/
def byHand {S : Type _} (L : MathLib K) (R : Inp.Reader S K) (qe past : K) (params : List S) (data : List K) (cs : List (Call K))
    (idx : Int) : M (List K × List K × List K × List K) := do
  let (m, wf) ← loadFile L R qe params data
  let s := session L m past ⟨none, wf⟩ cs
  let (s, r) := track L m past s (some idx)
  let (x, y) ← r
  let o ← tomogram L s x y m.niter
  let (tr, er, d) ← density m s x y o.st.weights idx
  pure (tr, er, d, o.st.discr)

end
end Verif.Short
