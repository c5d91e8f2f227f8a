import Verif.Lemmas.StepTrack

/-!
# Properties of the tracking loops written in python, on the caller's arrays (C106)

`tracker.kick_and_drift(denergy, dphi, ...)` and `tracker.kick_and_drift_self(denergy, dphi, ...)` with arrays `de`, `dp` of the
caller.
-/

namespace Verif.Props
open Verif.Spec Verif.Track Verif.Bind Verif.StepT

section
variable {α : Type} [Add α] [Sub α] [Mul α]

/-- the end of the upward loop -/
theorem upPart_run {sin : α → α} {zero : α} {m : Mach α} {phi12 : α} {R : Program α} {P n d r s : ℕ} {δ : Int}
    (hd : 0 < d) (hA : Agrees (spread m phi12 ((P - 1) * d)) ((P - 1) * d) R) (hr : r < P)
    (hs : (s : Int) = r * d + δ) (h1 : -(d : Int) < δ) (h2 : δ ≤ 0) (c : ℕ → α × α) :
    ∃ u, upPart sin zero (energies n c) (phis n c) m phi12 d P r δ = .ok u ∧
      u.dphi = phis n (fun i => transport sin R s ((P - 1) * d) (c i)) ∧
      u.denergy = energies n (fun i => transport sin R s ((P - 1) * d) (c i)) := by
  obtain ⟨hneg, hpos⟩ := start_div hd hs h1 (by omega)
  have hrd : ((r * d : ℕ) : Int) = r * d := by push_cast; rfl
  have hrn : r * d ≤ (P - 1) * d := Nat.mul_le_mul_right d (by omega)
  have hsn : s ≤ (P - 1) * d := by omega
  have hP : (P - 1) * d < P * d := Nat.mul_lt_mul_of_pos_right (by omega) hd
  have hprof : (if δ < 0 then (r : Int) - 1 else r) = ((s / d : ℕ) : Int) := by
    by_cases h : δ < 0
    · obtain ⟨h3, h4⟩ := hneg h
      rw [if_pos h, h4]; omega
    · rw [if_neg h, hpos (by omega)]
  unfold upPart
  dsimp only
  rw [length_tab, Int.toNat_natCast, zeros_eq, hprof, ← hs]
  have hN : (d : Int) * ((P : Int) - 1) = (((P - 1) * d : ℕ) : Int) := by
    have : ((P - 1 : ℕ) : Int) = (P : Int) - 1 := by omega
    rw [Nat.cast_mul, this]; ring
  rw [hN]
  have hfuel : ((((P - 1) * d : ℕ) : Int) - s).toNat = (P - 1) * d - s := by omega
  rw [hfuel]
  obtain ⟨X, hX1, hX2⟩ : ∃ X : ℕ → ℕ → α × α,
      storeStart (rows P n fun _ _ => zero) r δ (tab n fun i => (c i).1)
        = .ok (rows P n fun p i => (X p i).1) ∧
      storeStart (rows P n fun _ _ => zero) r δ (tab n fun i => (c i).2)
        = .ok (rows P n fun p i => (X p i).2) := by
    refine ⟨fun p i => if δ = 0 ∧ p = r then c i else (zero, zero), ?_, ?_⟩
    · unfold storeStart
      by_cases h : δ = 0
      · rw [if_pos h, setRow_ok _ _ hr rfl]
        congr 1; unfold rows; apply tab_congr; intro p _
        by_cases hp : p = r <;> simp [h, hp]
      · rw [if_neg h]; simp [h]
    · unfold storeStart
      by_cases h : δ = 0
      · rw [if_pos h, setRow_ok _ _ hr rfl]
        congr 1; unfold rows; apply tab_congr; intro p _
        by_cases hp : p = r <;> simp [h, hp]
      · rw [if_neg h]; simp [h]
  rw [hX1, bind_ok, hX2, bind_ok]
  have hu := upLoop_gen (sin := sin) (R := R) (P := P) (n := n) hd hP hsn (mkP P n) mkP_congr
    (cond := fun st : PS α => decide (st.turn < (((P - 1) * d : ℕ) : Int))) (body := upBodyPy sin m phi12 d n)
    (fun X c q t k => by unfold mkP; exact decide_eq_decide.mpr (by dsimp only; omega))
    (fun X c q t k ht h => upBodyPy_ok hA X c ht h) X c 0
  unfold mkP at hu
  refine ⟨_, hu, ?_, ?_⟩
  · apply tab_congr; intro i _
    unfold transport
    simp only [if_pos hsn]
  · apply tab_congr; intro i _
    unfold transport
    simp only [if_pos hsn]

/-- **C106 (coordinates), `_partial`**: whatever the element types and memory orders of the arrays, `kick_and_drift` returns the
particles of the caller's arrays carried to every profile, and changes no array but the two it was given.  Missing: offsets
`deltaturn > 0` (`C18_violated_hybrid`). -/
theorem C106_coordinates_partial (E : Env α) (hcv : ∀ x, E.cv .f64 x = x) {h : Heap α} {o : MachObj α} {de dp r1 r2 : Int}
    {De Dp : NdArr α} {n : ℕ} {c : ℕ → α × α} (hde : Is1D h de De (energies n c)) (hdp : Is1D h dp Dp (phis n c))
    (hne : dp ≠ de) {M : Mach α} {x : α} (hM : InMemory E h o r1 r2 [dp, de] M x) {R : Program α} {P d r s : ℕ} {δ : Int}
    (hd : 0 < d) (ho : o.dturns = d) (hA : Agrees (spread M x ((P - 1) * d)) ((P - 1) * d) R) (hr : r < P)
    (hs : (s : Int) = r * d + δ) (h1 : -(d : Int) < δ) (h2 : δ ≤ 0) :
    ∃ st, kickAndDriftH E h o de dp r1 r2 (d * (P - 1)) P r δ = .ok st ∧
      Holds st.outPhi st.outEn P n (fun p i => transport E.sin R s (p * d) (c i)) ∧
      ∀ b C, rd h b = .ok C → b ≠ dp → b ≠ de → rd st.h b = .ok C := by
  have := kickAndDriftH_sim E hcv hde hdp hne hM P r δ
  rw [ho, kickAndDriftPy_run hd hA hr hs h1 h2 c] at this
  obtain ⟨st, e, a, b, f, -⟩ := this
  exact ⟨st, e, ⟨a, b⟩, f⟩

/-- **C106 is violated by `kick_and_drift`** (tracking.py:275-289, libtomo.cpp:82-160: every turn is done in place, the copies of
lines 259-260 are for the second half of the tracking): arrays of type `float64` in C order hold the particles at the last profile
after the call, any other array is as it was. -/
theorem C106_violated_in_place (E : Env α) (hcv : ∀ x, E.cv .f64 x = x) {h : Heap α} {o : MachObj α} {de dp r1 r2 : Int}
    {De Dp : NdArr α} {n : ℕ} {c : ℕ → α × α} (hde : Is1D h de De (energies n c)) (hdp : Is1D h dp Dp (phis n c))
    (hne : dp ≠ de) {M : Mach α} {x : α} (hM : InMemory E h o r1 r2 [dp, de] M x) {R : Program α} {P d r s : ℕ} {δ : Int}
    (hd : 0 < d) (ho : o.dturns = d) (hA : Agrees (spread M x ((P - 1) * d)) ((P - 1) * d) R) (hr : r < P)
    (hs : (s : Int) = r * d + δ) (h1 : -(d : Int) < δ) (h2 : δ ≤ 0) :
    ∃ st, kickAndDriftH E h o de dp r1 r2 (d * (P - 1)) P r δ = .ok st ∧
      LeftIn st.h dp Dp (phis n fun i => transport E.sin R s ((P - 1) * d) (c i)) ∧
      LeftIn st.h de De (energies n fun i => transport E.sin R s ((P - 1) * d) (c i)) := by
  have := kickAndDriftH_sim E hcv hde hdp hne hM P r δ
  rw [ho, kickAndDriftPy_run hd hA hr hs h1 h2 c] at this
  obtain ⟨st, e, -, -, -, u, hu, l1, l2⟩ := this
  obtain ⟨u', hu', q1, q2⟩ := upPart_run (sin := E.sin) (zero := E.zero) (n := n) hd hA hr hs h1 h2 c
  rw [hu] at hu'
  cases hu'
  exact ⟨st, e, q1 ▸ l1, q2 ▸ l2⟩

/-- C106: every failure of the loop on values is a failure of the call, with the same exception, and the other way round. -/
theorem C106_failures (E : Env α) (hcv : ∀ x, E.cv .f64 x = x) {h : Heap α} {o : MachObj α} {de dp r1 r2 : Int}
    {De Dp : NdArr α} {e p : List α} (hde : Is1D h de De e) (hdp : Is1D h dp Dp p) (hne : dp ≠ de) {M : Mach α} {x : α}
    (hM : InMemory E h o r1 r2 [dp, de] M x) (P r δ : Int) :
    (kickAndDriftH E h o de dp r1 r2 (o.dturns * (P - 1)) P r δ).map (fun s => (s.outPhi, s.outEn)) =
      (kickAndDriftPy E.sin E.zero e p M x o.dturns P r δ).map (fun s => (s.outPhi, s.outEn)) := by
  have := kickAndDriftH_sim E hcv hde hdp hne hM P r δ
  unfold Sim at this
  split at this
  · rename_i f hf
    rw [hf, this]; rfl
  · rename_i t ht
    obtain ⟨s, e, a, b, -⟩ := this
    rw [ht, e]
    show Except.ok (s.outPhi, s.outEn) = Except.ok (t.outPhi, t.outEn)
    rw [a, b]

end

section
variable {K : Type} [Field K] [LinearOrder K] [FloorRing K]

/-- **C106 (self fields)** `kick_and_drift_self` on references does what the loop on values does (with its failures), whatever the
element types and memory orders; afterwards the two arrays hold the particles at the end of the upward loop if they are `float64`
arrays in C order (this is the change `Model/TrackObj.lean` makes to the particles of a tracker), other arrays are untouched. -/
theorem C106_self (E : Env K) (hcv : ∀ x, E.cv .f64 x = x) {h : Heap K} {o : MachObj K} {de dp r1 r2 : Int}
    {De Dp : NdArr K} {e p : List K} (hde : Is1D h de De e) (hdp : Is1D h dp Dp p) (hne : dp ≠ de) {M : Mach K} {x : K}
    (hM : InMemory E h o r1 r2 [dp, de] M x) (f : SelfF.SF K) (nturns P r : Int) :
    match TrkO.kickAndDriftSelfO E.sin M x f nturns o.dturns P r e p with
    | .error err => kickAndDriftSelfH E h o f M.phi0 de dp r1 r2 nturns P r = .error err
    | .ok (out, ends) => ∃ s, kickAndDriftSelfH E h o f M.phi0 de dp r1 r2 nturns P r = .ok s ∧ (s.xp, s.yp) = out ∧
        LeftIn s.h dp Dp ends.1 ∧ LeftIn s.h de De ends.2 ∧
        ∀ b C, rd h b = .ok C → b ≠ dp → b ≠ de → rd s.h b = .ok C := by
  have := kickAndDriftSelfH_sim E hcv hde hdp hne hM f nturns P r
  unfold Sim at this
  split at this
  · rename_i f hf
    rw [hf]; exact this
  · rename_i t ht
    rw [ht]
    obtain ⟨s, e, a, b, l1, l2⟩ := this
    exact ⟨s, e, a, l1, l2, b⟩

end

/-- the drift machine in memory: arrays of energies and phases of type `d`, and the tables of `driftMach` -/
def stepHeap (d : DType) : Heap ℚ :=
  [⟨d, .c, [[1, 2]]⟩, ⟨d, .c, [[0, 0]]⟩, ⟨.f64, .c, [[0, 0, 0]]⟩, ⟨.f64, .c, [[0, 0, 0]]⟩, ⟨.f64, .c, [[0, 0, 0]]⟩,
    ⟨.f64, .c, [[0, 0, 0]]⟩, ⟨.f64, .c, [[1, 1]]⟩]

def stepObj : MachObj ℚ := ⟨4, 5, 6, .float 0, .int 1, 2⟩

/-- numbers as in `envQ` of `Props/Bind.lean`, without rounding -/
def envX : Env ℚ := ⟨id, 0, fun _ x => x, fun n => n, false⟩

/-- the arrays are exact, the tables are in memory -/
theorem step_inMemory (d : DType) : InMemory envX (stepHeap d) stepObj 2 3 [1, 0] driftMach 0 where
  rf1v := ⟨_, rfl, rfl⟩
  rf2v := ⟨_, rfl, rfl⟩
  phi0 := ⟨_, rfl, rfl⟩
  deltaE0 := ⟨_, rfl, rfl⟩
  driftCoef := ⟨_, rfl, rfl⟩
  apart := by decide
  number12 := .inl rfl
  ratio := .inr ⟨1, rfl, by decide⟩

theorem spread_drift_agrees : Agrees (spread driftMach 0 ((2 - 1) * 2)) ((2 - 1) * 2) driftProg := by
  have e : spread driftMach 0 ((2 - 1) * 2) = driftMach := rfl
  rw [e]; exact drift_agrees

/-- two particles tracked from profile 0: after the call the caller's phases are those of the last profile -/
example : ∃ st, kickAndDriftH envX (stepHeap .f64) stepObj 0 1 2 3 2 2 0 0 = .ok st ∧ st.outPhi = [[0, 0], [-2, -4]] ∧
    rd st.h 1 = .ok ⟨.f64, .c, [[-2, -4]]⟩ ∧ rd st.h 0 = .ok ⟨.f64, .c, [[1, 2]]⟩ := by
  refine ⟨_, rfl, ?_, ?_, ?_⟩ <;> decide +kernel

/-- the theorem applied to it -/
example : ∃ st, kickAndDriftH envX (stepHeap .f64) stepObj 0 1 2 3 ((2 : ℕ) * ((2 : ℕ) - 1)) (2 : ℕ) (0 : ℕ) 0 = .ok st ∧
    LeftIn st.h 1 ⟨.f64, .c, [[0, 0]]⟩ (phis 2 fun i => transport envX.sin driftProg 0 ((2 - 1) * 2) (0, (i : ℚ) + 1)) ∧
    LeftIn st.h 0 ⟨.f64, .c, [[1, 2]]⟩ (energies 2 fun i => transport envX.sin driftProg 0 ((2 - 1) * 2) (0, (i : ℚ) + 1)) :=
  C106_violated_in_place envX (fun _ => rfl) (c := fun i => (0, (i : ℚ) + 1)) ⟨rfl, by decide +kernel⟩ ⟨rfl, by decide +kernel⟩
    (by decide) (step_inMemory .f64) (by decide) rfl spread_drift_agrees (by decide) (by decide) (by decide) (by decide)

/-- single precision arrays are left alone, with the same result -/
example : ∃ st, kickAndDriftH envX (stepHeap .f32) stepObj 0 1 2 3 2 2 0 0 = .ok st ∧ st.outPhi = [[0, 0], [-2, -4]] ∧
    rd st.h 1 = .ok ⟨.f32, .c, [[0, 0]]⟩ := by
  refine ⟨_, rfl, ?_, ?_⟩ <;> decide +kernel

/-- **C106 is violated by a second call** (tracking.py:275-289): the same call made twice with the same arrays gives different
coordinates, because the second one starts from the particles the first one left. -/
theorem C106_violated_again :
    ∃ st st', kickAndDriftH envX (stepHeap .f64) stepObj 0 1 2 3 2 2 0 0 = .ok st ∧
      kickAndDriftH envX st.h stepObj 0 1 2 3 2 2 0 0 = .ok st' ∧
      st.outPhi = [[0, 0], [-2, -4]] ∧ st'.outPhi = [[-2, -4], [-4, -8]] := by
  refine ⟨_, _, rfl, rfl, ?_, ?_⟩ <;> decide +kernel

/-- self fields on `float64` arrays: a constant self voltage; the phases afterwards are those of the end of the upward loop -/
example : (kickAndDriftSelfH envX (stepHeap .f64) stepObj
      ⟨0, 1, 1, 1, [1, 1, 1], 8, List.replicate 2 (List.replicate 8 1), 1, 4⟩ [0, 0, 0] 0 1 2 3 2 2 0).map
        (fun s => (s.xp, s.yp, s.h.take 2)) =
      .ok ([[0, 0], [5, 3]], [[5, 6], [7, 8]], [⟨.f64, .c, [[3, 4]]⟩, ⟨.f64, .c, [[-3, -5]]⟩]) := by decide +kernel

end Verif.Props
