import Verif.Model.Fit

/-!
# Model of `utils/tomographics.py`

Images are `Arr2` with the time bin as first index.  `np.interp` is `interpAt`: where the point is between the first and last
abscissa and the abscissae do not increase, numpy promises nothing and the model need not agree with it.  `savgol_filter` and
`scipy.optimize.minimize` are parameters.  A division by zero and the root of a negative number are the fault `nonFinite`,
except where the code replaces NaN by zero.
-/

namespace Verif.Graph
open Verif.Asrt Verif.Mch Verif.Pre Verif.Post

section
variable {K : Type _} [Field K] [LinearOrder K]

/-- `np.where(cond)[0]` -/
def npWhere (l : List K) (P : K → Bool) : List Nat := (List.range l.length).filter fun i => (l[i]?).any P

/-- `a[-1]` of the result of `np.where` -/
def lastIdx (l : List Nat) : M Nat :=
  match l.getLast? with
  | some i => .ok i
  | none => .error (.exc .indexError)

/-- `a[0]` of the result of `np.where` -/
def firstIdx (l : List Nat) : M Nat :=
  match l.head? with
  | some i => .ok i
  | none => .error (.exc .indexError)

/-- `np.interp(x, xs, ys)` for a number `x`.  Numpy first compares with the last abscissa, then with the first one, then
searches. -/
def interpAt (x : K) (xs ys : List K) : M K :=
  if xs.length ≠ ys.length then .error (.exc .valueError)
  else match xs.zip ys with
    | [] => .error (.exc .valueError)
    | (x0, y0) :: r =>
      let e := r.getLastD (x0, y0)
      .ok (if e.1 < x then e.2 else if x < x0 then y0 else Prog.interpGo x x0 y0 r)

/-- `np.trapz(y, dx=dx)` -/
def trapz (dx : K) : List K → K
  | [] => 0
  | [_] => 0
  | a :: b :: l => dx * (a + b) / 2 + trapz dx (b :: l)

/-- `np.linspace(a, b, n)` -/
def linspace (a b : K) (n : Nat) : List K := tab n fun i => a + (b - a) * i / (n - 1)

/-! ## Feet of a profile -/

/-- tomographics.py:64-94 `foot_tangent_fit_dq` after the filter -/
def footDq (x y : List K) (tRf : K) : M (K × K) := do
  let m ← Tomo.npMax y
  let above := npWhere y fun v => decide (15 / 100 * m ≤ v)
  let l ← firstIdx above
  let r ← lastIdx above
  if (l : Int) - 3 < 0 ∨ x.length ≤ r + 3 then .error (.exc .invalidProfileError)
  else do
    let (b1, a1) ← polyfit1 (npSlice x ((l : Int) - 3) ((l : Int) + 3)) (npSlice y ((l : Int) - 3) ((l : Int) + 3))
    let (b2, a2) ← polyfit1 (npSlice x ((r : Int) - 2) ((r : Int) + 4)) (npSlice y ((r : Int) - 2) ((r : Int) + 4))
    let xmin ← FDiv.fdiv (-a1) b1
    let xmax ← FDiv.fdiv (-a2) b2
    if 0 ≤ xmax - xmin ∧ xmax - xmin < tRf then pure (xmin, xmax) else .error (.exc .invalidProfileError)

/-- tomographics.py:33-94 `foot_tangent_fit_dq`; `savgol` is `scipy.signal.savgol_filter(y, 5, 4)` -/
def footTangentFitDq (savgol : List K → M (List K)) (x y : List K) (tRf : K) (applyFilter : Bool) : M (K × K) :=
  if applyFilter then do
    let y' ← savgol y
    footDq x y' tRf
  else footDq x y tRf

/-- tomographics.py:125-128, 150-151: sum of the values and weighted difference of the first four -/
def footSums (y : List K) : M (K × K) := do
  let y0 ← npGet y 0
  let y1 ← npGet y 1
  let y2 ← npGet y 2
  let y3 ← npGet y 3
  pure (y.sum, -6 * y0 - 2 * y1 + 2 * y2 + 6 * y3)

/-- tomographics.py:97-130 `foot_tangent_fit`.  `np.where(y == np.max(y))[0][0]` is `np.argmax`.  The divisions raise nothing in
numpy, so they come after the indexing. -/
def footTangentFit (y : List K) (dx : K) : M (K × K) := do
  let m ← Tomo.npMax y
  let p ← npArgmax y
  let below := npWhere y fun v => decide (v < 15 / 100 * m)
  let l ← lastIdx (below.filter fun i => decide (i < p))
  let r ← firstIdx (below.filter fun i => decide (p < i))
  let (sl, dl) ← footSums (npSlice y ((l : Int) - 1) ((l : Int) + 3))
  let (sr, dr) ← footSums (npSlice y ((r : Int) - 2) ((r : Int) + 2))
  let dl ← FDiv.fdiv (5 * sl) dl
  let dr ← FDiv.fdiv (6 * sr) dr
  pure (((l : K) - dl) * dx, ((r : K) - dr) * dx)

/-- tomographics.py:134-155 `foot_tangent_fit_density` -/
def footTangentFitDensity (y x : List K) (level : K) : M K :=
  if 0 < level ∧ level < 1 then do
    let mn ← npMin y
    let y := y.map fun v => v - mn
    let m ← Tomo.npMax y
    let p ← npArgmax y
    let below := npWhere y fun v => decide (v < level * m)
    let r ← firstIdx (below.filter fun i => decide (p < i))
    let (sr, dr) ← footSums (npSlice y ((r : Int) - 2) ((r : Int) + 2))
    let dr ← FDiv.fdiv (6 * sr) dr
    interpAt ((r : K) - dr) (tab x.length fun i => (i : K)) x
  else .error (.exc .valueError)

/-! ## Emittance of an image -/

/-- tomographics.py:254-260 `_cumulative_density_calc`; `-np.sort(-a)` is the decreasing order -/
def cumulativeDensity (image : Arr2 K) (dt dE : K) : List K × List K :=
  let c := cumsum 0 (sortDesc image.flatten)
  (c, tab c.length fun i => (i : K) * dt * dE)

/-- tomographics.py:263-302 `emittance_density_calc` -/
def emittanceDensity (image : Arr2 K) (dt dE target : K) : M K :=
  if 0 < target ∧ target < 1 then
    let (c, x) := cumulativeDensity image dt dE
    interpAt target c x
  else .error (.exc .valueError)

/-- the elements of `image * g` where `g` is one of the arrays made by `np.meshgrid(np.arange(n), np.arange(m))` from an image of
shape `(n, m)`; `g` has shape `(m, n)` and numpy broadcasts: an axis of length 1 is repeated. `g` is given as a function. -/
def timesGrid (image : Arr2 K) (g : Nat → Nat → K) : M (List K) :=
  let n := image.rows.length
  let m := image.cols
  if n = m ∨ n = 1 ∨ m = 1 then
    let s := max n m
    let e := if n = 0 ∨ m = 0 then 0 else s
    (List.range (e * s)).mapM fun k => do
      let row ← npGet image.rows ((if n = 1 then 0 else k / s : Nat) : Int)
      let v ← npGet row ((if m = 1 then 0 else k % s : Nat) : Int)
      pure (v * g (if m = 1 then 0 else k / s) (if n = 1 then 0 else k % s))
  else .error (.exc .valueError)

/-- tomographics.py:305-344 `rms_params` -/
def rmsParams (L : MathLib K) (image : Arr2 K) (dt dE : K) : M (K × K × K × K × K) := do
  let n : K := image.rows.length
  let xbar ← timesGrid image fun i _ => (i : K)
  let xms ← timesGrid image fun i _ => (i : K) ^ 2
  let ybar ← timesGrid image fun _ j => (j : K)
  let yms ← timesGrid image fun _ j => (j : K) ^ 2
  let xybar ← timesGrid image fun i j => (i : K) * (j : K)
  let xbar := xbar.sum
  let xms := xms.sum
  let ybar := ybar.sum
  let yms := yms.sum
  let xybar := xybar.sum
  let e ← npSqrt L ((xms - xbar ^ 2) * (yms - ybar ^ 2) - (xybar - xbar * ybar) ^ 2)
  let st ← npSqrt L (xms - xbar ^ 2)
  let se ← npSqrt L (yms - ybar ^ 2)
  pure (L.pi * dt * dE * e, xbar * dt, st * dt, (ybar - n / 2) * dE, se * dE)

/-! ## Contours -/

/-- what is read from the machine; only `Machine` has the attribute `vrf1` (`ProgramsMachine` never sets it) -/
structure GMach (K : Type _) where
  machineRefFrame : Int
  dturns : Int
  phi0 : List K
  e0 : List K
  eta0 : List K
  omegaRev0 : List K
  eRest : K
  hNum : K
  q : K
  vrf1 : Option K
  synchPartX : K

/-- the values at the turn of the frame -/
structure At (K : Type _) where
  phi0 : K
  e0 : K
  eta0 : K
  omega : K
  gamma0 : K

/-- tomographics.py:207-217, 377-387, 531-543 -/
def atFrame (m : GMach K) (frame : Option Int) : M (At K) := do
  let turn := frame.getD m.machineRefFrame * m.dturns
  let p0 ← npGet m.phi0 turn
  let e ← npGet m.e0 turn
  let eta ← npGet m.eta0 turn
  let om ← npGet m.omegaRev0 turn
  let g ← FDiv.fdiv e m.eRest
  pure ⟨p0, e, eta, om, g⟩

/-- tomographics.py:220, 389, 545: `phi_0 + np.linspace(-np.pi, np.pi, 1000)` -/
def phiArray (L : MathLib K) (phi0 : K) : List K := (linspace (-L.pi) L.pi 1000).map fun s => phi0 + s

/-- tomographics.py:221-222, 391-392, 546-547 -/
def urf (L : MathLib K) (v phi0 phi : K) : K := v * (L.cos phi0 - L.cos phi) + (phi0 - phi) * v * L.sin phi0

/-- tomographics.py:158-170 `_urf_length_at_level`: `phi_right`, `phi_left`.  (`np.argsort` is not stable; here equal levels
keep their order.) -/
def lengthAtLevel (phis urfs : List K) (phi0 level : K) : M (K × K) := do
  let pairs := urfs.zip phis
  let l := pairs.filter fun q => decide (q.2 < phi0)
  let r := (pairs.filter fun q => decide (phi0 < q.2)).insertionSort fun a b => a.1 ≤ b.1
  let pl ← interpAt 0 (l.map fun q => q.1 - level) (l.map fun q => q.2)
  let pr ← interpAt 0 (r.map fun q => q.1 - level) (r.map fun q => q.2)
  pure (pr, pl)

/-- tomographics.py:233-245, 408-419, 560-571: half height of the contour through `phiLeft` at phase `phi`; NaN becomes 0 -/
def height (L : MathLib K) (m : GMach K) (a : At K) (v phiLeft phi : K) : M K := do
  let ig ← FDiv.fdiv 1 a.gamma0
  let k ← FDiv.fdiv (m.q * (a.gamma0 - ig) * m.eRest) (L.pi * m.hNum * a.eta0)
  let r := k * (v * (L.cos phi - L.cos phiLeft) + (phi - phiLeft) * v * L.sin a.phi0)
  pure (if r < 0 then 0 else absv (L.sqrt r))

/-- tomographics.py:247-249, 473-477, 573-576: area of a contour from its heights -/
def areaOf (m : GMach K) (om : K) (heights phis : List K) : M K := do
  let p1 ← npGet phis 1
  let p0 ← npGet phis 0
  let f ← FDiv.fdiv 2 (m.hNum * om)
  pure (f * trapz (p1 - p0) heights)

/-- tomographics.py:183-251 `matched_area_calc`; `minimize f x0` is `scipy.optimize.minimize(f, x0, method='Powell')['x']` -/
def matchedArea (L : MathLib K) (minimize : (K → M K) → K → M K) (m : GMach K) (bunchLength : K) (frame : Option Int) : M K := do
  let a ← atFrame m frame
  let len := bunchLength * a.omega * m.hNum
  let phis := phiArray L a.phi0
  let v ← notNone m.vrf1 .attributeError
  let us := phis.map (urf L v a.phi0)
  let mx ← Tomo.npMax us
  let mn ← npMin us
  let level ← minimize (fun u => do
    let (pr, pl) ← lengthAtLevel phis us a.phi0 u
    pure ((pr - pl - len) ^ 2)) ((mx - mn) / 2 + mn)
  let (pr, pl) ← lengthAtLevel phis us a.phi0 level
  let ps := linspace pl pr 1000
  let hs ← ps.mapM (height L m a v pl)
  areaOf m a.omega hs ps

/-- tomographics.py:393-394, 548-549: the phases of the time bins -/
def matchedPhases (m : GMach K) (a : At K) (time : List K) : M (List K) := do
  let t1 ← npGet time 1
  let t0 ← npGet time 0
  let sync := m.synchPartX * (t1 - t0)
  pure (time.map fun t => (t - sync) * (m.hNum * a.omega) + a.phi0)

/-! ## Density against emittance -/

/-- sums over the time bins of one contour -/
structure Acc (K : Type _) where
  summed : K
  points : Nat
  loc : K
  locMin : Option K
  locMax : K

/-- `np.min([m, a, b])` where `m` is infinite at first -/
def minOpt (m : Option K) (a b : K) : K :=
  match m with
  | none => min a b
  | some v => min v (min a b)

/-- tomographics.py:432-458: one time bin: density inside, and at the upper and lower crossing -/
def crossings (dEs row : List K) (h : K) : M (K × K × K) := do
  let good := npWhere dEs fun e => decide (-h < e ∧ e < h)
  let vals ← good.mapM fun (i : Nat) => npGet row (i : Int)
  let g1 ← lastIdx good
  let top ← interpAt h (npSlice dEs (g1 : Int) ((g1 : Int) + 2)) (npSlice row (g1 : Int) ((g1 : Int) + 2))
  let e1 ← npGet dEs (g1 : Int)
  let r1 ← npGet row (g1 : Int)
  let a ← npGet dEs 1
  let b ← npGet dEs 0
  let d1 ← FDiv.fdiv (h - e1) (a - b)
  let g0 ← firstIdx good
  let bottom ← interpAt (-h) (npSlice dEs ((g0 : Int) - 1) ((g0 : Int) + 1)) (npSlice row ((g0 : Int) - 1) ((g0 : Int) + 1))
  let e0 ← npGet dEs (g0 : Int)
  let r0 ← npGet row (g0 : Int)
  let d0 ← FDiv.fdiv (e0 - -h) (a - b)
  pure (trapz 1 vals + trapz d1 [r1, top] + trapz d0 [bottom, r0], top, bottom)

/-- tomographics.py:428-465: one pass of the loop over the time bins -/
def binStep (image : Arr2 K) (dEs heights : List K) (i : Nat) (s : Acc K) : M (Acc K) := do
  let h ← npGet heights (i : Int)
  if h = 0 then pure s
  else do
    let row ← npGet image.rows (i : Int)
    let (d, top, bottom) ← crossings dEs row h
    pure ⟨s.summed + d, s.points + 1, s.loc + (top + bottom) / 2, some (minOpt s.locMin top bottom), max s.locMax (max top bottom)⟩

/-- what is stored for one amplitude: emittance, mean, minimal and maximal density on the contour, share inside -/
structure Point (K : Type _) where
  emittance : K
  loc : K
  locMin : K
  locMax : K
  summed : K
  deriving DecidableEq, Repr

/-- tomographics.py:403-477: one amplitude -/
def amplitudeStep (L : MathLib K) (m : GMach K) (a : At K) (v : K) (image : Arr2 K) (time dEs phis us ps : List K) (amp : K) :
    M (Point K) := do
  let (_, pl) ← lengthAtLevel phis us a.phi0 amp
  let hs ← ps.mapM (height L m a v pl)
  let _ ← npGet dEs 1
  let _ ← npGet dEs 0
  let s ← forN time.length (binStep image dEs hs) ⟨0, 0, 0, none, 0⟩
  match s.locMin with
  | none => pure ⟨0, 0, 0, 0, 0⟩
  | some mn => do
    let sd ← FDiv.fdiv s.summed image.flatten.sum
    let ar ← areaOf m a.omega hs ps
    pure ⟨ar, s.loc / s.points, mn, s.locMax, sd⟩

/-- tomographics.py:479-487: the first point extrapolated -/
def extrapolate (l : List (Point K)) : M (List (Point K)) := do
  let p0 ← npGet l 0
  if p0.loc = 0 then do
    let p2 ← npGet l 2
    let p1 ← npGet l 1
    let slope ← FDiv.fdiv (p2.loc - p1.loc) (p2.emittance - p1.emittance)
    let o := p1.loc - slope * p1.emittance
    pure (l.set 0 { p0 with loc := o, locMin := o, locMax := o })
  else pure l

/-- tomographics.py:347-490 `density_vs_emittance` -/
def densityVsEmittance (L : MathLib K) (m : GMach K) (image : Arr2 K) (time dEs : List K) (n : Nat) (frame : Option Int) :
    M (List (Point K)) := do
  let a ← atFrame m frame
  let phis := phiArray L a.phi0
  let v ← notNone m.vrf1 .attributeError
  let us := phis.map (urf L v a.phi0)
  let ps ← matchedPhases m a time
  let mn ← npMin us
  let pts ← (linspace 0 mn n).mapM (amplitudeStep L m a v image time dEs phis us ps)
  extrapolate pts

/-! ## Clipping of the weights -/

/-- tomographics.py:556-579: the heights of the first contour that has the wanted area, or of the last one -/
def clipHeights (L : MathLib K) (m : GMach K) (a : At K) (v : K) (phis us ps : List K) (target : K) :
    List K → Option (List K) → M (Option (List K))
  | [], o => .ok o
  | amp :: l, _ => do
    let (_, pl) ← lengthAtLevel phis us a.phi0 amp
    let hs ← ps.mapM (height L m a v pl)
    let ar ← areaOf m a.omega hs ps
    if target ≤ ar then pure (some hs) else clipHeights L m a v phis us ps target l (some hs)

/-- `w[idx] = 0` -/
def zeroAt (w : List K) (idx : List Nat) : M (List K) :=
  if idx.all fun i => decide (i < w.length) then .ok (w.mapIdx fun i v => if i ∈ idx then 0 else v) else .error (.exc .indexError)

/-- the first of the indices with the largest (`sgn = 1`) or smallest (`sgn = -1`) value -/
def extremeIdx (sgn : K) (ys : List K) (idx : List Nat) : M Nat := do
  let vs ← idx.mapM fun (i : Nat) => npGet ys (i : Int)
  let k ← npArgmax (vs.map fun v => sgn * v)
  match idx[k]? with
  | some i => pure i
  | none => .error (.exc .indexError)

/-- tomographics.py:583-618: one time bin: weights and `idx_minmax` -/
def clipStep (xs ys time dEs heights : List K) (i : Nat) (s : List K × List Nat) : M (List K × List Nat) := do
  let t ← npGet time (i : Int)
  let t' ← npGet time ((i : Int) + 1)
  let t0 ← npGet time 0
  let t1 ← npGet time 1
  let e0 ← npGet dEs 0
  let e1 ← npGet dEs 1
  let h ← npGet heights (i : Int)
  let lo ← FDiv.fdiv (t - t0) (t1 - t0)
  let hi ← FDiv.fdiv (t' - t0) (t1 - t0)
  let up ← FDiv.fdiv (h - e0) (e1 - e0)
  let down ← FDiv.fdiv (-h - e0) (e1 - e0)
  let pts := xs.zip ys
  let idxOut := (List.range pts.length).filter fun k => (pts[k]?).any fun q =>
    decide ((lo ≤ q.1 ∧ q.1 ≤ hi) ∧ (up ≤ q.2 ∨ q.2 ≤ down))
  let w ← zeroAt s.1 idxOut
  let idxIn := (List.range pts.length).filter fun k => (pts[k]?).any fun q =>
    decide ((lo ≤ q.1 ∧ q.1 ≤ hi) ∧ (q.2 < up ∧ down < q.2))
  if 1 < idxIn.length then do
    let mx ← extremeIdx 1 ys idxIn
    let mn ← extremeIdx (-1) ys idxIn
    pure (w, s.2 ++ [mn, mx])
  else if idxIn.length = 1 then .error (.exc .attributeError)
  else pure (w, s.2)

/-- tomographics.py:493-624 `tomo_weight_clipping`: weights, heights, indices -/
def weightClipping (L : MathLib K) (m : GMach K) (time dEs : List K) (mapX mapY : Arr2 K) (weight : List K) (target : K) (n : Nat)
    (frame : Option Int) : M (List K × List K × List Nat) := do
  let a ← atFrame m frame
  let phis := phiArray L a.phi0
  let v ← notNone m.vrf1 .attributeError
  let us := phis.map (urf L v a.phi0)
  let ps ← matchedPhases m a time
  let mn ← npMin us
  let _ ← npGet dEs 1
  let _ ← npGet dEs 0
  let hs ← clipHeights L m a v phis us ps target (linspace 0 mn n) none
  let hs ← bound hs
  let xs ← mapX.rows.mapM fun r => npGet r (frame.getD m.machineRefFrame)
  let ys ← mapY.rows.mapM fun r => npGet r (frame.getD m.machineRefFrame)
  let (w, idx) ← forN (time.length - 1) (clipStep xs ys time dEs hs) (weight, [])
  let w ← w.mapM fun x => FDiv.fdiv x w.sum
  pure (w.map fun x => x * weight.sum, hs, idx)

end
end Verif.Graph
