import Verif.Lemmas.TrackingLaws
import Verif.Lemmas.Liouville
import Mathlib.Data.Rat.Defs
import Mathlib.Algebra.Field.Rat

/-!
# Properties of the tracking (C16–C24)

A particle cloud is `c : ℕ → α × α` (phase, energy); `phis n c`, `energies n c` are the arrays handed to the code.
`nturns = (P - 1) * d` for `P` profiles `d` turns apart; the start turn is `s = r * d + δ`.
-/

set_option linter.unusedSectionVars false

namespace Verif.Props
open Verif.Spec Verif.Track

variable {α : Type} [Add α] [Sub α] [Mul α]

/-- phases of the first `n` particles -/
abbrev phis (n : ℕ) (c : ℕ → α × α) : List α := tab n fun i => (c i).1
/-- energies of the first `n` particles -/
abbrev energies (n : ℕ) (c : ℕ → α × α) : List α := tab n fun i => (c i).2

/-- the C++ tracking of `n` particles into `P × n` output arrays with previous contents `X` -/
abbrev cppTrack (sin : α → α) (m : Mach α) (P n d r : ℕ) (δ : Int) (X : ℕ → ℕ → α × α) (c : ℕ → α × α) : M (TS α) :=
  kickAndDrift sin (rows P n fun p i => (X p i).1) (rows P n fun p i => (X p i).2) (energies n c) (phis n c) m d r δ
    ((P - 1) * d : ℕ) n

/-- row `p`, column `i` of the outputs holds the particle `Y p i` -/
def Holds (xp yp : List (List α)) (P n : ℕ) (Y : ℕ → ℕ → α × α) : Prop :=
  xp = (rows P n fun p i => (Y p i).1) ∧ yp = (rows P n fun p i => (Y p i).2)

theorem Holds.congr {xp yp : List (List α)} {P n : ℕ} {Y Z : ℕ → ℕ → α × α} (h : Holds xp yp P n Y)
    (hYZ : ∀ p i, p < P → i < n → Y p i = Z p i) : Holds xp yp P n Z := by
  obtain ⟨h1, h2⟩ := h
  constructor
  · rw [h1]; exact tab_congr fun p hp => tab_congr fun i hi => by dsimp only; rw [hYZ p i hp hi]
  · rw [h2]; exact tab_congr fun p hp => tab_congr fun i hi => by dsimp only; rw [hYZ p i hp hi]

/-- a small two-harmonic machine over ℚ with 9 turns, used in the examples; `sin x = x` -/
def demoMach : Mach ℚ :=
  { rf1v := tab 10 fun t => (t : ℚ) + 1
    rf2v := tab 10 fun _ => 1 / 2
    phi0 := tab 10 fun t => (t : ℚ) / 10
    deltaE0 := tab 10 fun _ => 1 / 4
    driftCoef := tab 10 fun t => 1 / ((t : ℚ) + 2)
    phi12 := tab 10 fun _ => 1 / 3
    hratio := 2 }

def demoProg : Program ℚ :=
  { rf1 := fun t => (t : ℚ) + 1, rf2 := fun _ => 1 / 2, phi0 := fun t => (t : ℚ) / 10, dE := fun _ => 1 / 4,
    coef := fun t => 1 / ((t : ℚ) + 2), phi12 := fun _ => 1 / 3, h := 2 }

theorem demo_agrees {N : ℕ} (hN : N ≤ 9) : Agrees demoMach N demoProg := by
  constructor <;> first | rfl | (intro t ht; exact some_tab _ (by omega))

/-! ## C16 -/

section C16
variable {K : Type} [Ring K]

/-- C16, one turn on the arrays: `drift_up`, `kick_up` followed by `kick_down`, `drift_down` with the same parameters
give back the arrays, for any number of particles. -/
theorem C16_up_then_down (sin : K → K) (coef v1 v2 p0 p12 h acc : K) (n : ℕ) (dphi denergy : List K)
    (h1 : dphi.length = n) (h2 : denergy.length = n) :
    (do
      let p ← driftUp dphi denergy coef n
      let e ← kickUp sin p denergy v1 v2 p0 p12 h n acc
      let e' ← kickDown sin p e v1 v2 p0 p12 h n acc
      let p' ← driftDown p e' coef n
      pure (p', e')) = .ok (dphi, denergy) := by
  haveI : Inhabited K := ⟨0⟩
  have e1 := eq_tab_of_length dphi
  have e2 := eq_tab_of_length denergy
  rw [h1] at e1
  rw [h2] at e2
  rw [e1, e2]
  rw [driftUp_ok, bind_ok, kickUp_ok, bind_ok, kickDown_ok, bind_ok, driftDown_ok, bind_ok]
  simp

/-- C16, the other order. -/
theorem C16_down_then_up (sin : K → K) (coef v1 v2 p0 p12 h acc : K) (n : ℕ) (dphi denergy : List K)
    (h1 : dphi.length = n) (h2 : denergy.length = n) :
    (do
      let e ← kickDown sin dphi denergy v1 v2 p0 p12 h n acc
      let p ← driftDown dphi e coef n
      let p' ← driftUp p e coef n
      let e' ← kickUp sin p' e v1 v2 p0 p12 h n acc
      pure (p', e')) = .ok (dphi, denergy) := by
  haveI : Inhabited K := ⟨0⟩
  have e1 := eq_tab_of_length dphi
  have e2 := eq_tab_of_length denergy
  rw [h1] at e1
  rw [h2] at e2
  rw [e1, e2]
  rw [kickDown_ok, bind_ok, driftDown_ok, bind_ok, driftUp_ok, bind_ok, kickUp_ok, bind_ok]
  simp

/-- C16 for any number `k` of turns, from any turn `s`, in both orders; `transport` is what the code stores (C17). -/
theorem C16_any_number_of_turns (sin : K → K) (R : Program K) (s t : ℕ) (x : K × K) :
    transport sin R t s (transport sin R s t x) = x := by
  rw [transport_trans, transport_self]

example : transport (fun x : ℚ => x) demoProg 0 3 (1, 2) ≠ (1, 2)
    ∧ transport (fun x : ℚ => x) demoProg 3 0 (transport (fun x : ℚ => x) demoProg 0 3 (1, 2)) = (1, 2) :=
  ⟨by decide +kernel, C16_any_number_of_turns _ _ _ _ _⟩
end C16

/-! ## C17 -/

/-- Exact content of every output row for every start profile and every `|δ| < d`, in any arithmetic: rows after `r`
hold the cloud carried forward from the start turn; the other rows are carried backward from turn `r * d`, starting
from the cloud carried forward to that turn (`δ < 0`) or from the *untransported* cloud (`δ ≥ 0`). -/
theorem C17_rows_for_every_deltaturn (sin : α → α) {m : Mach α} {R : Program α} {P n d r s : ℕ} {δ : Int} (hd : 0 < d)
    (hA : Agrees m ((P - 1) * d) R) (hr : r < P) (hs : (s : Int) = r * d + δ)
    (h1 : -(d : Int) < δ) (h2 : δ < d) (hsn : s ≤ (P - 1) * d) (X : ℕ → ℕ → α × α) (c : ℕ → α × α) :
    ∃ st, cppTrack sin m P n d r δ X c = .ok st ∧ Holds st.xp st.yp P n fun p i =>
      if r < p then up sin R s (p * d - s) (c i)
      else down sin R (r * d) (r * d - p * d) (if δ < 0 then up sin R s (r * d - s) (c i) else c i) :=
  ⟨_, kickAndDrift_run hd hA rfl hr hs h1 h2 hsn X c, rfl, rfl⟩

/-- C17 without a turn offset, in any arithmetic (so also in floating point): row `p` of every particle is its
transport from turn `r * d` to turn `p * d`; every row is written whatever the output arrays held before. -/
theorem C17_no_offset (sin : α → α) {m : Mach α} {R : Program α} {P n d r : ℕ} (hd : 0 < d)
    (hA : Agrees m ((P - 1) * d) R) (hr : r < P) (X : ℕ → ℕ → α × α) (c : ℕ → α × α) :
    ∃ st, cppTrack sin m P n d r 0 X c = .ok st ∧
      Holds st.xp st.yp P n fun p i => transport sin R (r * d) (p * d) (c i) := by
  refine ⟨_, kickAndDrift_run hd hA rfl hr (s := r * d) (by push_cast; ring) (by omega) (by omega)
    (Nat.mul_le_mul_right d (by omega)) X c, ?_⟩
  refine Holds.congr (Y := fun p i => outRow sin R d r (r * d) ((0 : Int) < 0) (c i) p) ⟨rfl, rfl⟩ ?_
  intro p i _ _
  exact outRow_zero sin R d r p _ (by simp) _

/-- C17, `_partial`: every non-positive turn offset accepted by `track`, in exact arithmetic.  Missing: positive offsets,
where the code is wrong (`C17_violated_deltaturn`). -/
theorem C17_rows_partial {K : Type} [Ring K] (sin : K → K) {m : Mach K} {R : Program K} {P n d r s : ℕ} {δ : Int}
    (hd : 0 < d) (hA : Agrees m ((P - 1) * d) R) (hr : r < P) (hs : (s : Int) = r * d + δ)
    (h1 : -(d : Int) < δ) (h2 : δ ≤ 0) (X : ℕ → ℕ → K × K) (c : ℕ → K × K) :
    ∃ st, cppTrack sin m P n d r δ X c = .ok st ∧
      Holds st.xp st.yp P n fun p i => transport sin R s (p * d) (c i) := by
  have hrd : ((r * d : ℕ) : Int) = r * d := by push_cast; rfl
  have hrn : r * d ≤ (P - 1) * d := Nat.mul_le_mul_right d (by omega)
  refine ⟨_, kickAndDrift_run hd hA rfl hr hs h1 (by omega) (by omega) X c, ?_⟩
  refine Holds.congr (Y := fun p i => outRow sin R d r s (δ < 0) (c i) p) ⟨rfl, rfl⟩ ?_
  intro p i _ _
  exact outRow_nonpos sin R hs h2 _

/-- the hypotheses are met: 4 profiles 3 turns apart, started one turn before profile 2 -/
example : ∃ st, cppTrack (fun x : ℚ => x) demoMach 4 5 3 2 (-1) (fun _ _ => (0, 0)) (fun i => ((i : ℚ), 1)) = .ok st ∧
    Holds st.xp st.yp 4 5 fun p i => transport (fun x : ℚ => x) demoProg 5 (p * 3) ((i : ℚ), 1) :=
  C17_rows_partial _ (by decide) (demo_agrees (by decide)) (by decide) (by decide) (by decide) (by decide) _ _

/-- a bare drift: no voltage, unit slip -/
def driftMach : Mach ℚ :=
  { rf1v := [0, 0, 0], rf2v := [0, 0, 0], phi0 := [0, 0, 0], deltaE0 := [0, 0, 0], driftCoef := [1, 1],
    phi12 := [0, 0, 0], hratio := 1 }
def driftProg : Program ℚ :=
  { rf1 := fun _ => 0, rf2 := fun _ => 0, phi0 := fun _ => 0, dE := fun _ => 0, coef := fun _ => 1, phi12 := fun _ => 0,
    h := 1 }
theorem drift_agrees : Agrees driftMach 2 driftProg := by
  constructor <;> first | rfl | (intro t ht; have : t = 0 ∨ t = 1 ∨ t = 2 := by omega
                                 rcases this with rfl | rfl | rfl <;> first | rfl | omega)

/-- C17 fails for positive offsets that `track` accepts: two profiles, two turns apart, started one turn after profile
0.  Row 0 holds the untransported particle, not the particle carried back to turn 0. -/
theorem C17_violated_deltaturn :
    trackCheck 2 2 0 1 = .ok 0 ∧
    ∃ st, cppTrack (fun x : ℚ => x) driftMach 2 1 2 0 1 (fun _ _ => (0, 0)) (fun _ => (0, 1)) = .ok st ∧
      ¬ Holds st.xp st.yp 2 1 fun p _ => transport (fun x : ℚ => x) driftProg 1 (p * 2) (0, 1) := by
  refine ⟨by decide, _, kickAndDrift_run (R := driftProg) (s := 1) (by decide) drift_agrees rfl (by decide) (by decide)
    (by decide) (by decide) (by decide) _ _, ?_⟩
  intro h
  have := h.1
  revert this
  decide +kernel

/-! ## C18 -/

/-- C18, C++ against the CuPy loop: same outputs for every start and every `|δ| < d`, in any arithmetic.  The C++ side
has `phi12` given as an array of `nturns + 1` entries. -/
theorem C18_cupy_eq_cpp (sin : α → α) {m : Mach α} {phi12 : α} {R : Program α} {P n d r s : ℕ} {δ : Int} (hd : 0 < d)
    (hA : Agrees (spread m phi12 ((P - 1) * d)) ((P - 1) * d) R) (hr : r < P) (hs : (s : Int) = r * d + δ)
    (h1 : -(d : Int) < δ) (h2 : δ < d) (hsn : s ≤ (P - 1) * d) (X : ℕ → ℕ → α × α) (c : ℕ → α × α) :
    ∃ st st', cppTrack sin (spread m phi12 ((P - 1) * d)) P n d r δ X c = .ok st ∧
      kickAndDriftCupy sin (rows P n fun p i => (X p i).1) (rows P n fun p i => (X p i).2) (energies n c) (phis n c)
        m phi12 d r δ ((P - 1) * d : ℕ) n = .ok st' ∧
      st'.outPhi = st.xp ∧ st'.outEn = st.yp := by
  obtain ⟨st', h, ha, hb⟩ := kickAndDriftCupy_run (sin := sin) hd hA rfl hr hs h1 h2 hsn X c (n := n)
  exact ⟨_, st', kickAndDrift_run hd hA rfl hr hs h1 h2 hsn X c, h, ha, hb⟩

/-- C18, C++ against the CUDA kernels: same outputs for every start, every `|δ| < d` and every positive block size, in
any arithmetic; the CUDA arrays are the same rows laid out one after the other. -/
theorem C18_cuda_eq_cpp (sin : α → α) {m : Mach α} {phi12 : α} {R : Program α} {P n d r s block : ℕ} {δ : Int}
    (hb : 0 < block) (hd : 0 < d) (hA : Agrees (spread m phi12 ((P - 1) * d)) ((P - 1) * d) R) (hr : r < P)
    (hs : (s : Int) = r * d + δ) (h1 : -(d : Int) < δ) (h2 : δ < d) (hsn : s ≤ (P - 1) * d)
    (X : ℕ → ℕ → α × α) (c : ℕ → α × α) :
    ∃ st Y, cppTrack sin (spread m phi12 ((P - 1) * d)) P n d r δ X c = .ok st ∧ Holds st.xp st.yp P n Y ∧
      kickAndDriftCuda sin block (flat P n fun p i => (X p i).1) (flat P n fun p i => (X p i).2) (energies n c)
        (phis n c) m phi12 d r δ ((P - 1) * d : ℕ) n
        = .ok (flat P n fun p i => (Y p i).1, flat P n fun p i => (Y p i).2) :=
  ⟨_, _, kickAndDrift_run hd hA rfl hr hs h1 h2 hsn X c, ⟨rfl, rfl⟩,
    kickAndDriftCuda_run hb hd hA rfl hr hs h1 h2 hsn X c⟩

/-- C18, C++ against the python loop `Tracking.kick_and_drift`, `_partial`: all start profiles without offset, in any
arithmetic.  Missing: `δ > 0`, where they differ (`C18_violated_hybrid`). -/
theorem C18_hybrid_eq_cpp_partial (sin : α → α) (zero : α) {m : Mach α} {phi12 : α} {R : Program α} {P n d r : ℕ}
    (hd : 0 < d) (hA : Agrees (spread m phi12 ((P - 1) * d)) ((P - 1) * d) R) (hr : r < P)
    (X : ℕ → ℕ → α × α) (c : ℕ → α × α) :
    ∃ st st', cppTrack sin (spread m phi12 ((P - 1) * d)) P n d r 0 X c = .ok st ∧
      kickAndDriftPy sin zero (energies n c) (phis n c) m phi12 d P r 0 = .ok st' ∧
      st'.outPhi = st.xp ∧ st'.outEn = st.yp := by
  obtain ⟨st, h, ha⟩ := C17_no_offset (n := n) sin hd hA hr X c
  refine ⟨st, _, h, kickAndDriftPy_run hd hA hr (s := r * d) (by push_cast; ring) (by omega) le_rfl c, ?_, ?_⟩
  · exact ha.1.symm
  · exact ha.2.symm

/-- C18 for negative offsets, `_partial`: C++ and python agree in exact arithmetic. -/
theorem C18_hybrid_eq_cpp_negative_partial {K : Type} [Ring K] (sin : K → K) (zero : K) {m : Mach K} {phi12 : K}
    {R : Program K} {P n d r s : ℕ} {δ : Int}
    (hd : 0 < d) (hA : Agrees (spread m phi12 ((P - 1) * d)) ((P - 1) * d) R) (hr : r < P) (hs : (s : Int) = r * d + δ)
    (h1 : -(d : Int) < δ) (h2 : δ ≤ 0) (X : ℕ → ℕ → K × K) (c : ℕ → K × K) :
    ∃ st st', cppTrack sin (spread m phi12 ((P - 1) * d)) P n d r δ X c = .ok st ∧
      kickAndDriftPy sin zero (energies n c) (phis n c) m phi12 d P r δ = .ok st' ∧
      st'.outPhi = st.xp ∧ st'.outEn = st.yp := by
  obtain ⟨st, h, ha⟩ := C17_rows_partial (n := n) sin hd hA hr hs h1 h2 X c
  exact ⟨st, _, h, kickAndDriftPy_run hd hA hr hs h1 h2 c, ha.1.symm, ha.2.symm⟩

/-- C18 fails for positive offsets: on the drift machine started one turn after profile 0, the python loop writes the
state of turn 0 into the *last* row (index −1), the C++ loop does not. -/
theorem C18_violated_hybrid :
    ∃ st st', cppTrack (fun x : ℚ => x) driftMach 2 1 2 0 1 (fun _ _ => (0, 0)) (fun _ => (0, 1)) = .ok st ∧
      kickAndDriftPy (fun x : ℚ => x) 0 (energies 1 fun _ => (0, 1)) (phis 1 fun _ => (0, 1)) driftMach 0 2 2 0 1
        = .ok st' ∧ st'.outPhi ≠ st.xp ∧ st'.outPhi = [[0], [1]] ∧ st.xp = [[0], [-1]] := by
  refine ⟨_, _, rfl, rfl, ?_, ?_, ?_⟩ <;> decide +kernel

example : ∃ st st', cppTrack (fun x : ℚ => x) (spread demoMach (1/3) 9) 4 5 3 2 (1) (fun _ _ => (0, 0))
      (fun i => ((i : ℚ), 1)) = .ok st ∧
    kickAndDriftCupy (fun x : ℚ => x) (rows 4 5 fun _ _ => 0) (rows 4 5 fun _ _ => 0) (energies 5 fun i => ((i : ℚ), 1))
      (phis 5 fun i => ((i : ℚ), 1)) demoMach (1/3) 3 2 1 9 5 = .ok st' ∧ st'.outPhi = st.xp ∧ st'.outEn = st.yp := by
  have hA : Agrees (spread demoMach (1/3) ((4 - 1) * 3)) ((4 - 1) * 3) demoProg := by
    have h := demo_agrees (N := 9) le_rfl
    exact { rf1v := h.rf1v, rf2v := h.rf2v, phi0 := h.phi0, deltaE0 := h.deltaE0, driftCoef := h.driftCoef,
            hratio := h.hratio
            phi12 := fun t ht => by
              show (List.replicate _ _)[t]? = _
              rw [List.getElem?_replicate, if_pos (by omega)]; rfl }
  exact C18_cupy_eq_cpp (s := 7) (P := 4) (d := 3) (fun x : ℚ => x) (by decide) hA (by decide) (by decide) (by decide)
    (by decide) (by decide) (fun _ _ => (0, 0)) (fun i => ((i : ℚ), 1))

/-! ## C19 -/

/-- C19: track from profile `r` (possibly some turns before it), take the cloud stored for any profile `q` and track
that cloud from profile `q`: the two runs return the same arrays.  The second run may start from any contents of the
output arrays. -/
theorem C19_start_profile_independent {K : Type} [Ring K] (sin : K → K) {m : Mach K} {R : Program K} {P n d r s q : ℕ}
    {δ : Int} (hd : 0 < d) (hA : Agrees m ((P - 1) * d) R) (hr : r < P) (hs : (s : Int) = r * d + δ)
    (h1 : -(d : Int) < δ) (h2 : δ ≤ 0) (hq : q < P) (X X' : ℕ → ℕ → K × K) (c : ℕ → K × K) :
    ∃ st dphi denergy st', cppTrack sin m P n d r δ X c = .ok st ∧
      st.xp[q]? = some dphi ∧ st.yp[q]? = some denergy ∧
      kickAndDrift sin (rows P n fun p i => (X' p i).1) (rows P n fun p i => (X' p i).2) denergy dphi m d q 0
        ((P - 1) * d : ℕ) n = .ok st' ∧
      st'.xp = st.xp ∧ st'.yp = st.yp := by
  obtain ⟨st, h, ha⟩ := C17_rows_partial (n := n) sin hd hA hr hs h1 h2 X c
  obtain ⟨st', h', ha'⟩ := C17_no_offset (n := n) sin hd hA hq X' fun i => transport sin R s (q * d) (c i)
  refine ⟨st, _, _, st', h, ?_, ?_, h', ?_⟩
  · rw [ha.1]; exact some_tab _ hq
  · rw [ha.2]; exact some_tab _ hq
  · have := ha'.congr (Z := fun p i => transport sin R s (p * d) (c i)) fun p i _ _ => transport_trans _ _ _ _ _ _
    exact ⟨this.1.trans ha.1.symm, this.2.trans ha.2.symm⟩

example : ∃ st dphi denergy st', cppTrack (fun x : ℚ => x) demoMach 4 5 3 2 (-1) (fun _ _ => (0, 0))
      (fun i => ((i : ℚ), 1)) = .ok st ∧ st.xp[0]? = some dphi ∧ st.yp[0]? = some denergy ∧
    kickAndDrift (fun x : ℚ => x) (rows 4 5 fun _ _ => 7) (rows 4 5 fun _ _ => 7) denergy dphi demoMach 3 0 0 9 5
      = .ok st' ∧ st'.xp = st.xp ∧ st'.yp = st.yp :=
  C19_start_profile_independent (s := 5) (P := 4) (d := 3) (r := 2) (q := 0) _ (by decide) (demo_agrees (by decide))
    (by decide) (by decide) (by decide) (by decide) (by decide) _ (fun _ _ => (7, 7)) _

/-! ## C20 -/

/-- C20: select any particles `σ 0, σ 1, …, σ (n' - 1)` of a cloud of `n` (sub-selection, permutation, repetition): the
run on the selection returns in column `j` of every row what the run on the whole cloud returns in column `σ j`.  Every
start profile, every `|δ| < d`, any arithmetic. -/
theorem C20_selection (sin : α → α) {m : Mach α} {R : Program α} {P n n' d r s : ℕ} {δ : Int} (hd : 0 < d)
    (hA : Agrees m ((P - 1) * d) R) (hr : r < P) (hs : (s : Int) = r * d + δ)
    (h1 : -(d : Int) < δ) (h2 : δ < d) (hsn : s ≤ (P - 1) * d) (X X' : ℕ → ℕ → α × α) (c : ℕ → α × α)
    (σ : ℕ → ℕ) (hσ : ∀ j, j < n' → σ j < n) :
    ∃ st st', cppTrack sin m P n d r δ X c = .ok st ∧ cppTrack sin m P n' d r δ X' (fun j => c (σ j)) = .ok st' ∧
      ∀ p j, p < P → j < n' → ∃ row row' erow erow', st.xp[p]? = some row ∧ st'.xp[p]? = some row' ∧
        st.yp[p]? = some erow ∧ st'.yp[p]? = some erow' ∧
        row'[j]? = row[σ j]? ∧ erow'[j]? = erow[σ j]? ∧ j < row'.length := by
  refine ⟨_, _, kickAndDrift_run hd hA rfl hr hs h1 h2 hsn X c,
    kickAndDrift_run hd hA rfl hr hs h1 h2 hsn X' fun j => c (σ j), ?_⟩
  intro p j hp hj
  refine ⟨_, _, _, _, some_tab _ hp, some_tab _ hp, some_tab _ hp, some_tab _ hp, ?_, ?_, ?_⟩
  · rw [some_tab _ hj, some_tab _ (hσ j hj)]
  · rw [some_tab _ hj, some_tab _ (hσ j hj)]
  · rwa [length_tab]

/-- the hypotheses are met by the reversal of a cloud of five, started one turn after profile 1 -/
example : ∃ st st', cppTrack (fun x : ℚ => x) demoMach 4 5 3 1 1 (fun _ _ => (0, 0)) (fun i => ((i : ℚ), 1)) = .ok st ∧
    cppTrack (fun x : ℚ => x) demoMach 4 5 3 1 1 (fun _ _ => (0, 0)) (fun j => (((4 - j : ℕ) : ℚ), 1)) = .ok st' ∧
    ∀ p j, p < 4 → j < 5 → ∃ row row' erow erow', st.xp[p]? = some row ∧ st'.xp[p]? = some row' ∧
        st.yp[p]? = some erow ∧ st'.yp[p]? = some erow' ∧
        row'[j]? = row[4 - j]? ∧ erow'[j]? = erow[4 - j]? ∧ j < row'.length :=
  C20_selection (s := 4) (P := 4) (d := 3) (c := fun i => ((i : ℚ), 1)) (n := 5) (n' := 5) (r := 1) _ (by decide)
    (demo_agrees (by decide)) (by decide) (by decide) (by decide) (by decide) (by decide) _ _ (fun j => 4 - j)
    (by intro j _; omega)

/-! ## C21 -/

open MeasureTheory in
/-- C21: for every machine, start profile and offset there are maps `T p` of the phase plane, each preserving area, such
that the tracking of any cloud stores `T p` of each particle in row `p`. -/
theorem C21_liouville {sin : ℝ → ℝ} (hsin : Measurable sin) {m : Mach ℝ} {R : Program ℝ} {P d r s : ℕ} {δ : Int}
    (hd : 0 < d) (hA : Agrees m ((P - 1) * d) R) (hr : r < P) (hs : (s : Int) = r * d + δ)
    (h1 : -(d : Int) < δ) (h2 : δ < d) (hsn : s ≤ (P - 1) * d) :
    ∃ T : ℕ → ℝ × ℝ → ℝ × ℝ, (∀ p, MeasurePreserving (T p) volume volume) ∧
      ∀ n X c, ∃ st, cppTrack sin m P n d r δ X c = .ok st ∧ Holds st.xp st.yp P n fun p i => T p (c i) :=
  ⟨fun p x => outRow sin R d r s (δ < 0) x p, fun p => outRow_preserving hsin R d r s _ p,
    fun n X c => ⟨_, kickAndDrift_run hd hA rfl hr hs h1 h2 hsn X c, rfl, rfl⟩⟩

open MeasureTheory in
/-- C21 for the transport between any two turns (what C17 shows is stored). -/
theorem C21_transport {sin : ℝ → ℝ} (hsin : Measurable sin) (R : Program ℝ) (s t : ℕ) :
    MeasurePreserving (transport sin R s t) volume volume := by
  by_cases h : s ≤ t
  · have : transport sin R s t = up sin R s (t - s) := by funext x; simp [transport, h]
    rw [this]; exact up_preserving hsin R _ _
  · have : transport sin R s t = down sin R s (s - t) := by funext x; simp [transport, h]
    rw [this]; exact down_preserving hsin R _ _

open MeasureTheory in
/-- the area of the image of the unit square, tracked 7 turns back with some real machine, is the area of the square -/
example : volume (transport (fun x : ℝ => x ^ 2) ⟨fun t => t, fun _ => 3, fun _ => 1, fun _ => 2, fun t => t + 1,
      fun _ => 0, 2⟩ 9 2 ⁻¹' (Set.Icc 0 1 ×ˢ Set.Icc 0 1)) = volume (Set.Icc (0:ℝ) 1 ×ˢ Set.Icc (0:ℝ) 1) :=
  (C21_transport (measurable_id.pow_const 2) _ 9 2).measure_preimage
    ((measurableSet_Icc.prod measurableSet_Icc).nullMeasurableSet)

/-! ## C22 -/

/-- C22, `_partial`: without a turn offset the callback receives exactly `(1, N), (2, N), …, (N, N)` with
`N = nturns`, whatever the start profile.  Missing: `δ ≠ 0`, where the sequence is wrong
(`C22_violated_deltaturn`). -/
theorem C22_calls_partial (sin : α → α) {m : Mach α} {R : Program α} {P n d r : ℕ} (hd : 0 < d)
    (hA : Agrees m ((P - 1) * d) R) (hr : r < P) (X : ℕ → ℕ → α × α) (c : ℕ → α × α) :
    ∃ st, cppTrack sin m P n d r 0 X c = .ok st ∧
      st.calls = (List.range ((P - 1) * d)).map fun (j : ℕ) => ((j : Int) + 1, (((P - 1) * d : ℕ) : Int)) := by
  have hrn : r * d ≤ (P - 1) * d := Nat.mul_le_mul_right d (by omega)
  refine ⟨_, kickAndDrift_run hd hA rfl hr (s := r * d) (by push_cast; ring) (by omega) (by omega) hrn X c, ?_⟩
  have e : (P - 1) * d - r * d + r * d = (P - 1) * d := by omega
  unfold mk
  rw [e]; rfl

example : ∃ st, cppTrack (fun x : ℚ => x) demoMach 4 5 3 2 0 (fun _ _ => (0, 0)) (fun i => ((i : ℚ), 1)) = .ok st ∧
    st.calls = [(1,9),(2,9),(3,9),(4,9),(5,9),(6,9),(7,9),(8,9),(9,9)] :=
  C22_calls_partial (P := 4) (d := 3) _ (by decide) (demo_agrees (by decide)) (by decide) _ _

/-- C22 fails for *every* offset `δ ≠ 0`: `nturns - δ` calls are made, with a total of `nturns`, so the last call never
reports `progress = total`. -/
theorem C22_violated_deltaturn (sin : α → α) {m : Mach α} {R : Program α} {P n d r s : ℕ} {δ : Int} (hd : 0 < d)
    (hA : Agrees m ((P - 1) * d) R) (hr : r < P) (hs : (s : Int) = r * d + δ)
    (h1 : -(d : Int) < δ) (h2 : δ < d) (h0 : δ ≠ 0) (hsn : s < (P - 1) * d) (X : ℕ → ℕ → α × α) (c : ℕ → α × α) :
    ∃ st last, cppTrack sin m P n d r δ X c = .ok st ∧ (st.calls.length : Int) = ((P - 1) * d : ℕ) - δ ∧
      st.calls.getLast? = some last ∧ last = ((((P - 1) * d : ℕ) : Int) - δ, (((P - 1) * d : ℕ) : Int)) ∧
      last.1 ≠ last.2 := by
  have hrd : ((r * d : ℕ) : Int) = r * d := by push_cast; rfl
  have hrn : r * d ≤ (P - 1) * d := Nat.mul_le_mul_right d (by omega)
  refine ⟨_, _, kickAndDrift_run hd hA rfl hr hs h1 h2 (by omega) X c, ?_, ?_, rfl, ?_⟩
  · unfold mk; rw [length_tab]; omega
  · unfold mk
    obtain ⟨k, hk⟩ : ∃ k, (P - 1) * d - s + r * d = k + 1 := ⟨(P - 1) * d - s + r * d - 1, by omega⟩
    rw [hk]
    dsimp only
    rw [tab_snoc, List.getLast?_append]
    simp only [List.getLast?_singleton, Option.some_or, Option.some.injEq, Prod.mk.injEq, and_true]
    omega
  · dsimp only; omega

/-- the hypotheses are met: 4 profiles 3 turns apart, started one turn before profile 2 -/
example : ∃ st last, cppTrack (fun x : ℚ => x) demoMach 4 5 3 2 (-1) (fun _ _ => (0, 0)) (fun i => ((i : ℚ), 1))
      = .ok st ∧ (st.calls.length : Int) = ((4 - 1) * 3 : ℕ) - (-1) ∧ st.calls.getLast? = some last ∧
      last = ((((4 - 1) * 3 : ℕ) : Int) - (-1), (((4 - 1) * 3 : ℕ) : Int)) ∧ last.1 ≠ last.2 :=
  C22_violated_deltaturn (s := 5) _ (by decide) (demo_agrees (by decide)) (by decide) (by decide) (by decide)
    (by decide) (by decide) (by decide) _ _

/-! ## C23 -/

/-- `recprof` counted from the end when negative -/
def Normalised (nprofiles recprof r : Int) : Prop :=
  0 ≤ r ∧ r < nprofiles ∧ (r = recprof ∨ r = recprof + nprofiles ∧ recprof < 0)

theorem index_cases (nprofiles recprof : Int) :
    (∃ r, assertIndexOk recprof nprofiles true = .ok r ∧ Normalised nprofiles recprof r) ∨
    (assertIndexOk recprof nprofiles true = .error .indexError ∧ ¬ ∃ r, Normalised nprofiles recprof r) := by
  unfold assertIndexOk Normalised
  by_cases h1 : recprof < 0
  · rw [if_pos h1, if_neg (by simp)]
    by_cases h2 : nprofiles + recprof < 0
    · rw [if_pos h2]
      exact Or.inr ⟨rfl, by rintro ⟨r, h5, h6, h7⟩; omega⟩
    · rw [if_neg h2]
      exact Or.inl ⟨_, rfl, by omega, by omega, by omega⟩
  · rw [if_neg h1]
    by_cases h2 : recprof ≥ nprofiles
    · rw [if_pos h2]
      exact Or.inr ⟨rfl, by rintro ⟨r, h5, h6, h7⟩; omega⟩
    · rw [if_neg h2]
      exact Or.inl ⟨_, rfl, by omega, by omega, by omega⟩

theorem Normalised.unique {nprofiles recprof r r' : Int} (h : Normalised nprofiles recprof r)
    (h' : Normalised nprofiles recprof r') : r = r' := by
  obtain ⟨h1, h2, h3⟩ := h
  obtain ⟨h4, h5, h6⟩ := h'
  omega

/-- C23, `_partial`: `track` accepts exactly when the profile exists (counted from the end if negative), the offset is
smaller than the distance of profiles, and the start turn is in `[0, nturns)`.  Missing: the start turn `nturns`, i.e.
the last profile, is inside the measured turns but rejected (`C23_violated_last_profile`). -/
theorem C23_accepts_iff_partial (nprofiles dturns recprof δ r : Int) :
    trackCheck nprofiles dturns recprof δ = .ok r ↔
      Normalised nprofiles recprof r ∧ |δ| < dturns ∧ 0 ≤ dturns * r + δ ∧ dturns * r + δ < dturns * (nprofiles - 1) := by
  unfold trackCheck
  rcases index_cases nprofiles recprof with ⟨r', he, hn⟩ | ⟨he, hn⟩
  · rw [he]
    simp only [bind, Except.bind]
    constructor
    · intro h
      by_cases h5 : |δ| < dturns
      · rw [if_neg (not_not.mpr h5)] at h
        by_cases h6 : dturns * r' + δ < dturns * (nprofiles - 1)
        · rw [if_neg (not_not.mpr h6)] at h
          by_cases h7 : 0 ≤ dturns * r' + δ
          · rw [if_neg (not_not.mpr h7)] at h
            cases h
            exact ⟨hn, h5, h7, h6⟩
          · rw [if_pos h7] at h; cases h
        · rw [if_pos h6] at h; cases h
      · rw [if_pos h5] at h; cases h
    · rintro ⟨h1, h4, h5, h6⟩
      have := hn.unique h1
      subst this
      rw [if_neg (not_not.mpr h4), if_neg (not_not.mpr h6), if_neg (not_not.mpr h5)]
  · rw [he]
    simp only [bind, Except.bind]
    constructor
    · intro h; cases h
    · rintro ⟨h1, -⟩
      exact absurd ⟨r, h1⟩ hn

/-- C23: what is raised otherwise: `IndexError` when there is no such profile, `ValueError` for a bad start turn. -/
theorem C23_rejection (nprofiles dturns recprof δ : Int) {e : Exn} (h : trackCheck nprofiles dturns recprof δ = .error e) :
    (e = .indexError ∧ ¬ ∃ r, Normalised nprofiles recprof r) ∨
    (e = .valueError ∧ ∃ r, Normalised nprofiles recprof r ∧
      ¬ (|δ| < dturns ∧ 0 ≤ dturns * r + δ ∧ dturns * r + δ < dturns * (nprofiles - 1))) := by
  unfold trackCheck at h
  rcases index_cases nprofiles recprof with ⟨r', he, hn⟩ | ⟨he, hn⟩
  · rw [he] at h
    simp only [bind, Except.bind] at h
    right
    by_cases h5 : |δ| < dturns
    · rw [if_neg (not_not.mpr h5)] at h
      by_cases h6 : dturns * r' + δ < dturns * (nprofiles - 1)
      · rw [if_neg (not_not.mpr h6)] at h
        by_cases h7 : 0 ≤ dturns * r' + δ
        · rw [if_neg (not_not.mpr h7)] at h
          cases h
        · rw [if_pos h7] at h; cases h
          exact ⟨rfl, r', hn, fun hh => h7 hh.2.1⟩
      · rw [if_pos h6] at h; cases h
        exact ⟨rfl, r', hn, fun hh => h6 hh.2.2⟩
    · rw [if_pos h5] at h; cases h
      exact ⟨rfl, r', hn, fun hh => h5 hh.1⟩
  · rw [he] at h
    cases h
    exact Or.inl ⟨rfl, hn⟩

/-- C23 fails at the end of the range: the last profile is never accepted, although its turn `nturns` is tracked. -/
theorem C23_violated_last_profile (nprofiles dturns : Int) (hd : 0 < dturns) (hp : 0 < nprofiles) :
    trackCheck nprofiles dturns (nprofiles - 1) 0 = .error .valueError ∧
    trackCheck nprofiles dturns (-1) 0 = .error .valueError := by
  constructor
  · unfold trackCheck assertIndexOk
    rw [if_neg (by omega), if_neg (by omega)]
    simp only [bind, Except.bind]
    rw [if_neg (by simpa using hd), if_pos (by simp)]
  · unfold trackCheck assertIndexOk
    rw [if_pos (by omega), if_neg (by simp), if_neg (by omega)]
    simp only [bind, Except.bind]
    rw [if_neg (by simpa using hd), if_pos (by rw [add_comm (-1) nprofiles, ← sub_eq_add_neg]; simp)]

example : trackCheck 5 10 (-3) (-9) = .ok 2 ∧ trackCheck 5 10 5 0 = .error .indexError ∧
    trackCheck 5 10 0 (-1) = .error .valueError ∧ trackCheck 5 10 3 9 = .ok 3 := by decide

/-! ## C24 -/

/-- C24, `_partial`: if every per-turn array has at least `nturns + 1` entries (`drift_coef`: `nturns`), the tracking
makes no access outside its arrays, for every start turn up to the last one and every `|δ| < d`.  Missing: the scalar
`phi12` path, which does (`C24_violated_scalar`). -/
theorem C24_array_safe_partial (sin : α → α) {m : Mach α} {P n d r s : ℕ} {δ : Int} (hd : 0 < d)
    (l1 : (P - 1) * d + 1 ≤ m.rf1v.length) (l2 : (P - 1) * d + 1 ≤ m.rf2v.length)
    (l3 : (P - 1) * d + 1 ≤ m.phi0.length) (l4 : (P - 1) * d + 1 ≤ m.deltaE0.length)
    (l5 : (P - 1) * d ≤ m.driftCoef.length) (l6 : (P - 1) * d + 1 ≤ m.phi12.length)
    (hr : r < P) (hs : (s : Int) = r * d + δ)
    (h1 : -(d : Int) < δ) (h2 : δ < d) (hsn : s ≤ (P - 1) * d) (X : ℕ → ℕ → α × α) (c : ℕ → α × α) :
    ∃ st, cppTrack sin m P n d r δ X c = .ok st := by
  have key : ∀ (l : List α) (v : α), ∀ t, t < l.length → l[t]? = some (l.getD t v) := by
    intro l v t ht
    rw [List.getElem?_eq_getElem ht]
    simp [List.getD, ht]
  have hA : Agrees m ((P - 1) * d) ⟨fun t => m.rf1v.getD t m.hratio, fun t => m.rf2v.getD t m.hratio,
      fun t => m.phi0.getD t m.hratio, fun t => m.deltaE0.getD t m.hratio, fun t => m.driftCoef.getD t m.hratio,
      fun t => m.phi12.getD t m.hratio, m.hratio⟩ :=
    { rf1v := fun t ht => key _ _ t (by omega)
      rf2v := fun t ht => key _ _ t (by omega)
      phi0 := fun t ht => key _ _ t (by omega)
      deltaE0 := fun t ht => key _ _ t (by omega)
      driftCoef := fun t ht => key _ _ t (by omega)
      phi12 := fun t ht => key _ _ t (by omega)
      hratio := rfl }
  exact ⟨_, kickAndDrift_run hd hA rfl hr hs h1 h2 hsn X c⟩

example : ∃ st, cppTrack (fun x : ℚ => x) demoMach 4 5 3 2 (-1) (fun _ _ => (0, 0)) (fun i => ((i : ℚ), 1)) = .ok st :=
  C24_array_safe_partial (s := 5) _ (by decide) (by decide) (by decide) (by decide) (by decide) (by decide) (by decide)
    (by decide) (by decide) (by decide) (by decide) (by decide) _ _

/-- C24 fails for the scalar `phi12` of an ordinary machine: *every* call of `track` that passes its checks reads
`phi12[nturns]` from an array of `nturns` entries. -/
theorem C24_violated_scalar (sin : α → α) (zero : α) {m : Mach α} {phi12 : α} {R : Program α} {P d n : ℕ}
    {recprof δ r : Int} (hA : Agrees (spread m phi12 ((P - 1) * d)) ((P - 1) * d) R)
    (hok : trackCheck P d recprof δ = .ok r) (c : ℕ → α × α) :
    track sin zero m phi12 P d recprof δ (phis n c) (energies n c) = .error .oob := by
  obtain ⟨⟨h1, h2, -⟩, h3, h4, h5⟩ := (C23_accepts_iff_partial _ _ _ _ _).mp hok
  obtain ⟨h3a, h3b⟩ := abs_lt.mp h3
  have hd : 0 < d := by
    have := abs_nonneg δ
    omega
  obtain ⟨r', rfl⟩ := Int.eq_ofNat_of_zero_le h1
  obtain ⟨s, hs⟩ := Int.eq_ofNat_of_zero_le h4
  have hP : ((P - 1 : ℕ) : Int) = (P : Int) - 1 := by omega
  have hN : (d : Int) * ((P : Int) - 1) = (((P - 1) * d : ℕ) : Int) := by
    rw [Nat.cast_mul, hP]; ring
  have hsn : s < (P - 1) * d := by
    rw [hN, hs] at h5; exact_mod_cast h5
  unfold track
  rw [hok]
  dsimp only
  rw [length_tab, Int.toNat_natCast, zeros_eq, hN]
  have := kickAndDriftScalar_oob (sin := sin) (n := n) hd hA rfl (r := r') (by omega) (s := s) (δ := δ)
    (by rw [← hs]; ring) h3a h3b hsn (fun _ _ => (zero, zero)) c
  rw [this]
  rfl

/-- the hypotheses are met by an ordinary call -/
example : track (fun x : ℚ => x) 0 demoMach (1/3) 4 3 0 0 (phis 2 fun i => ((i : ℚ), 1)) (energies 2 fun i => ((i : ℚ), 1))
    = .error .oob := by
  have hA : Agrees (spread demoMach (1/3) ((4 - 1) * 3)) ((4 - 1) * 3) demoProg := by
    have h := demo_agrees (N := 9) le_rfl
    exact { rf1v := h.rf1v, rf2v := h.rf2v, phi0 := h.phi0, deltaE0 := h.deltaE0, driftCoef := h.driftCoef,
            hratio := h.hratio
            phi12 := fun t ht => by
              show (List.replicate _ _)[t]? = _
              rw [List.getElem?_replicate, if_pos (by omega)]; rfl }
  exact C24_violated_scalar (P := 4) (d := 3) (recprof := 0) (δ := 0) (r := 0) _ _ hA (by decide) _

end Verif.Props
