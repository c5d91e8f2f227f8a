import Verif.Props.Area
import Verif.Props.Fit
import Verif.Props.MachineObj
import Verif.Props.ProgramsObj
import Verif.Props.SelfField
import Verif.Props.Tomography

/-!
# Theorems added after wrong programs went unnoticed (C13, C29, C51, C62, C65, C109, C111)
-/

set_option linter.unusedSectionVars false

namespace Verif.Props
open Finset Verif.Mch Verif.Asrt Verif.Part Verif.Psi

/-- C13: the constructor with coordinates is the constructor without them followed by the two assignments, first `xp`, then `yp`: it gives the object
they leave if both are accepted, and otherwise raises the first of their exceptions. -/
theorem C13_constructor (nprofs nbins : ℕ) (x y : Tomo.PyVal) :
    let t₁ := Tomo.coordStep ⟨nprofs, nbins, none, none, none⟩ (.xp x)
    let t₂ := Tomo.coordStep t₁.1 (.yp y)
    (∀ t, Tomo.coordInit nprofs nbins x y = .ok t ↔ t₁.2 = none ∧ t₂.2 = none ∧ t = t₂.1) ∧
    (∀ e, Tomo.coordInit nprofs nbins x y = .error e ↔ t₁.2 = some e ∨ (t₁.2 = none ∧ t₂.2 = some e)) := by
  intro t₁ t₂
  have h1 : Tomo.setXp ⟨nprofs, nbins, none, none, none⟩ x = (t₁.1, t₁.2) := rfl
  have h2 : Tomo.setYp t₁.1 y = (t₂.1, t₂.2) := rfl
  unfold Tomo.coordInit
  rw [h1]
  cases he : t₁.2 with
  | some e =>
    constructor
    · intro t; simp
    · intro e'; simp
  | none =>
    dsimp only
    rw [h2]
    cases he' : t₂.2 with
    | some e => constructor <;> intro t <;> simp
    | none => constructor <;> intro t <;> simp [eq_comm]

/-- vertical coordinates of another shape -/
example : Tomo.coordInit 1 4 (.array [2, 1] [.fin 0, .fin 3]) (.array [1, 1] [.fin 1]) = .error .coordinateImportError := by decide +kernel

section
variable {K : Type} [Field K] [LinearOrder K] [IsStrictOrderedRing K] [FloorRing K]

/-- C29: a distribution for a turn between two profiles, `δ` turns from profile `r`, consists of the same points of the image as one at the profile;
phases are counted with revolution frequency and synchronous phase of that very turn. -/
theorem C29_between_profiles {L : MathLib K} {m : Area K} {xo dE : K} {l : Limits} (h : findLimits L m = .ok (xo, dE, l))
    {pts : List (K × K)} (hp : cellPoints m.snpt l = .ok pts) {N s : ℕ} {om ph : ℕ → K} (ho : m.omegaRev0 = tab N om) (hph : m.phi0 = tab N ph)
    {r δ : ℤ} (hs : r * m.dturns + δ = s) (hN : s < N) :
    homogeneousDistribution L m r δ = .ok (pts.map fun p =>
      ((p.1 + xo) * m.hNum * om s * m.dtbin - ph s, (p.2 - m.synchPartY) * dE)) := by
  unfold homogeneousDistribution
  rw [h, bind_ok]
  dsimp only
  rw [hp, bind_ok]
  unfold binToPhysical
  dsimp only
  rw [hs, ho, hph, npGet_tab om hN, bind_ok, npGet_tab ph hN, bind_ok]
  rfl

/-- the turn after profile 0 -/
example : homogeneousDistribution libQ area0 0 1 = homogeneousDistribution libQ area0 1 0 ∧
    homogeneousDistribution libQ area0 0 1 ≠ homogeneousDistribution libQ area0 0 0 ∧
    (homogeneousDistribution libQ area0 0 1).toOption.isSome = true := by decide +kernel

theorem mapM_both {α β : Type} {f : α → Verif.M β} {l : List α} {l' : List β} (h : l.mapM f = .ok l') :
    (∀ x ∈ l, ∃ v ∈ l', f x = .ok v) ∧ ∀ v ∈ l', ∃ x ∈ l, f x = .ok v := by
  induction l generalizing l' with
  | nil =>
    cases h
    simp
  | cons a l ih =>
    rw [List.mapM_cons] at h
    obtain ⟨b, h1, h⟩ := bind_ok_iff.mp h
    obtain ⟨r, h2, h⟩ := bind_ok_iff.mp h
    cases h
    obtain ⟨i1, i2⟩ := ih h2
    constructor
    · intro x hx
      rcases List.mem_cons.mp hx with rfl | hx
      · exact ⟨b, List.mem_cons_self, h1⟩
      · obtain ⟨v, hv, e⟩ := i1 x hx
        exact ⟨v, List.mem_cons_of_mem _ hv, e⟩
    · intro v hv
      rcases List.mem_cons.mp hv with rfl | hv
      · exact ⟨a, List.mem_cons_self, h1⟩
      · obtain ⟨x, hx, e⟩ := i2 v hv
        exact ⟨x, List.mem_cons_of_mem _ hx, e⟩

theorem mem_tab {α : Type} {n : ℕ} {g : ℕ → α} {v : α} : v ∈ tab n g ↔ ∃ i, i < n ∧ g i = v := by
  unfold tab
  simp [List.mem_map]

/-- the quantity that is constant along a trajectory: kinetic part minus potential of the two voltages and of the acceleration -/
def invariant (cos : K → K) (c q v1 v2 h p12 acc φ δ : K) : K :=
  c * δ ^ 2 / (2 * q) - (v1 * cos φ + v2 * cos (h * (φ - p12)) / h + acc * φ)

/-- C51: the height of the trajectory through (`φ₀`, `δ₀`) at the phase `φ`.  It is not negative; if the trajectory reaches that phase, it is the energy
for which the invariant has the same value as at (`φ₀`, `δ₀`), and otherwise it is zero. -/
theorem C51_height (L : MathLib K) (hsq : ∀ x, 0 ≤ x → 0 ≤ L.sqrt x ∧ L.sqrt x ^ 2 = x) {m : Area K} {N t : ℕ} (ht : t < N) {dc V1 V2 ph : ℕ → K}
    (h1 : m.driftCoef = tab N dc) (h2 : m.vrf1AtTurn = tab N V1) (h3 : m.vrf2AtTurn = tab N V2) (h4 : m.phi0 = tab N ph)
    (hc : dc t ≠ 0) (hh : m.hRatio ≠ 0) (hq : m.q ≠ 0) (φ φ₀ δ₀ : K) {acc : K}
    (hacc : acc = V1 t * L.sin (ph t) + V2 t * L.sin (m.hRatio * (ph t - m.phi12))) :
    ∃ δ, trajectoryHeight L m φ φ₀ δ₀ t = .ok δ ∧ 0 ≤ δ ∧
      ((∃ ε, invariant L.cos (dc t) m.q (V1 t) (V2 t) m.hRatio m.phi12 acc φ ε =
          invariant L.cos (dc t) m.q (V1 t) (V2 t) m.hRatio m.phi12 acc φ₀ δ₀) →
        invariant L.cos (dc t) m.q (V1 t) (V2 t) m.hRatio m.phi12 acc φ δ =
          invariant L.cos (dc t) m.q (V1 t) (V2 t) m.hRatio m.phi12 acc φ₀ δ₀) ∧
      ((¬ ∃ ε, invariant L.cos (dc t) m.q (V1 t) (V2 t) m.hRatio m.phi12 acc φ ε =
          invariant L.cos (dc t) m.q (V1 t) (V2 t) m.hRatio m.phi12 acc φ₀ δ₀) → δ = 0) := by
  set s := 2 * m.q / dc t * (V1 t * (L.cos φ - L.cos φ₀) +
    V2 t * (L.cos (m.hRatio * (φ - m.phi12)) - L.cos (m.hRatio * (φ₀ - m.phi12))) / m.hRatio + (φ - φ₀) * acc) + δ₀ ^ 2 with hs
  have hr : trajectoryHeight L m φ φ₀ δ₀ t = .ok (if 0 ≤ s then L.sqrt s else 0) := by
    unfold trajectoryHeight
    rw [h1, h2, h3, h4, rd_tab _ ht, bind_ok, fdiv_ok hc, bind_ok, rd_tab _ ht, bind_ok, rd_tab _ ht, bind_ok, fdiv_ok hh, bind_ok,
      rd_tab _ ht, bind_ok]
    dsimp only
    unfold rfVoltageAtPhase
    rw [← hacc]
    rfl
  have key : ∀ ε, invariant L.cos (dc t) m.q (V1 t) (V2 t) m.hRatio m.phi12 acc φ ε =
      invariant L.cos (dc t) m.q (V1 t) (V2 t) m.hRatio m.phi12 acc φ₀ δ₀ ↔ ε ^ 2 = s := by
    intro ε
    rw [hs]
    unfold invariant
    constructor
    · intro h
      have h' : dc t * ε ^ 2 / (2 * m.q) = (V1 t * (L.cos φ - L.cos φ₀) +
          V2 t * (L.cos (m.hRatio * (φ - m.phi12)) - L.cos (m.hRatio * (φ₀ - m.phi12))) / m.hRatio + (φ - φ₀) * acc) +
          dc t * δ₀ ^ 2 / (2 * m.q) := by
        rw [mul_sub (V2 t), sub_div]
        linear_combination h
      have h2 : ε ^ 2 = 2 * m.q / dc t * (dc t * ε ^ 2 / (2 * m.q)) := by
        field_simp
      rw [h2, h']
      field_simp
    · intro h
      rw [h]
      field_simp
      ring
  refine ⟨_, hr, ?_, ?_, ?_⟩
  · split_ifs with h
    · exact (hsq s h).1
    · exact le_rfl
  · rintro ⟨ε, hε⟩
    have h0 : 0 ≤ s := by
      rw [← (key ε).mp hε]
      exact sq_nonneg ε
    rw [key, if_pos h0]
    exact (hsq s h0).2
  · intro hne
    split_ifs with h
    · exact absurd ⟨_, (key _).mpr (hsq s h).2⟩ hne
    · rfl

/-- C51: with both voltages and no height given, the height of half an energy axis, `nbins - synch_part_y` bins, is the lower of two: the greatest
height over the edges of all the bins of the trajectory that starts at the left edge of the image, and that of the trajectory from the right edge. -/
theorem C51_energy_bin (L : MathLib K) {m : Area K} {xo : K} {N r d : ℕ} {om V2 : ℕ → K} (hr : m.beamRefFrame = r) (hd : m.dturns = d)
    (hN : r * d < N) (h1 : m.omegaRev0 = tab N om) (h2 : m.vrf2AtTurn = tab N V2) (hv : V2 (r * d) ≠ 0) (hm : m.demax < 0) {dE : K}
    (hE : findDEbin L m xo = .ok dE) {edge : ℕ → K} (hedge : edge = fun i : ℕ => (xo + (i : K)) * m.dtbin * m.hNum * om (r * d)) :
    ∃ a b : K, dE * (m.nbins - m.synchPartY) = min a b ∧
      (∀ i, i ≤ m.nbins → ∃ v, trajectoryHeight L m (edge i) (edge 0) 0 (r * d : ℕ) = .ok v ∧ v ≤ a) ∧
      (∃ i, i ≤ m.nbins ∧ trajectoryHeight L m (edge i) (edge 0) 0 (r * d : ℕ) = .ok a) ∧
      (∀ i, i ≤ m.nbins → ∃ v, trajectoryHeight L m (edge i) (edge m.nbins) 0 (r * d : ℕ) = .ok v ∧ v ≤ b) ∧
      ∃ i, i ≤ m.nbins ∧ trajectoryHeight L m (edge i) (edge m.nbins) 0 (r * d : ℕ) = .ok b := by
  have ht : m.beamRefFrame * m.dturns = ((r * d : ℕ) : ℤ) := by rw [hr, hd]; push_cast; rfl
  unfold findDEbin at hE
  dsimp only at hE
  rw [ht] at hE
  have hph : calculatePhases m xo ((r * d : ℕ) : ℤ) = .ok (tab (m.nbins + 1) edge) := by
    unfold calculatePhases
    rw [h1, rd_tab _ hN, bind_ok, hedge]
    rfl
  rw [hph, bind_ok] at hE
  obtain ⟨_, -, hE⟩ := bind_ok_iff.mp hE
  rw [if_pos hm, h2, rd_tab _ hN, bind_ok, if_pos hv,
    show rd (tab (m.nbins + 1) edge) 0 = .ok (edge 0) from rd_tab' edge rfl (by omega), bind_ok, rd_tab _ (by omega), bind_ok] at hE
  obtain ⟨low, g1, hE⟩ := bind_ok_iff.mp hE
  obtain ⟨up, g2, hE⟩ := bind_ok_iff.mp hE
  obtain ⟨a, g3, hE⟩ := bind_ok_iff.mp hE
  obtain ⟨b, g4, hE⟩ := bind_ok_iff.mp hE
  have dv : dE * (m.nbins - m.synchPartY) = min a b := by
    by_cases h0 : (m.nbins : K) - m.synchPartY = 0
    · have : FDiv.fdiv (min a b) ((m.nbins : K) - m.synchPartY) = .error .nonFinite := if_pos h0
      rw [this] at hE
      cases hE
    · rw [fdiv_ok h0] at hE
      rw [← Except.ok.inj hE, div_mul_cancel₀ _ h0]
  have top : ∀ {f : K → Verif.M K} {l : List K} {a : K}, (tab (m.nbins + 1) edge).mapM f = .ok l → Tomo.npMax l = .ok a →
      (∀ i, i ≤ m.nbins → ∃ v, f (edge i) = .ok v ∧ v ≤ a) ∧ ∃ i, i ≤ m.nbins ∧ f (edge i) = .ok a := by
    intro f l a hl ha
    obtain ⟨q1, q2⟩ := mapM_both hl
    have hne : l ≠ [] := by
      rintro rfl
      obtain ⟨v, hv, -⟩ := q1 (edge 0) (mem_tab.mpr ⟨0, by omega, rfl⟩)
      cases hv
    obtain ⟨a', e1, e2, e3⟩ := Pre.npMax_spec hne
    rw [ha] at e1
    cases e1
    constructor
    · intro i hi
      obtain ⟨v, hv, hf⟩ := q1 (edge i) (mem_tab.mpr ⟨i, by omega, rfl⟩)
      exact ⟨v, hf, e3 v hv⟩
    · obtain ⟨x, hx, hf⟩ := q2 a e2
      obtain ⟨i, hi, rfl⟩ := mem_tab.mp hx
      exact ⟨i, by omega, hf⟩
  obtain ⟨p1, p2⟩ := top g1 g3
  obtain ⟨p3, p4⟩ := top g2 g4
  exact ⟨a, b, dv, p1, p2, p3, p4⟩

/-- both voltages, the height not given; the square root replaced by the identity -/
def area2 : Area ℚ := { area0 with vrf2AtTurn := [1, 1], demax := -1 }

example : findDEbin libQ area2 (-5/6) = .ok (24/49) ∧
    (tab 5 fun i => trajectoryHeight libQ area2 (2 * (-5/6 + i) / 7) (2 * (-5/6) / 7) 0 0) = [.ok 0, .ok (36/49), .ok (48/49), .ok (36/49), .ok 0] ∧
    (24/49 : ℚ) * (area2.nbins - area2.synchPartY) = 48/49 := by decide +kernel

end

section
variable {K : Type} [Field K] [LinearOrder K]

/-- C62: without profiles of the user's, those that are smoothed are the measured ones, each divided by the sum of its bins; a profile whose bins add up to
nothing gives no result. -/
theorem C62_normalised_before_smoothing (savgol : Arr2 K → Verif.M (Arr2 K)) {P nb : ℕ} (f : ℕ → ℕ → K) :
    ((∀ p, p < P → ∑ b ∈ range nb, f p b ≠ 0) →
      SelfF.filtered savgol (arr P nb f) .standard = savgol (arr P nb fun p b => f p b / ∑ b ∈ range nb, f p b)) ∧
    ((∃ p, p < P ∧ 0 < nb ∧ ∑ b ∈ range nb, f p b = 0) → ∀ a, SelfF.filtered savgol (arr P nb f) .standard ≠ .ok a) := by
  have row : ∀ p, (tab nb (f p)).sum = ∑ b ∈ range nb, f p b := fun p => sum_tab _ _
  constructor
  · intro h
    show SelfF.standardFilter savgol (arr P nb f) = _
    unfold SelfF.standardFilter arr
    dsimp only
    rw [mapM_tab (g := fun r => r.map fun v => v / r.sum) P _ fun p hp => ?_, bind_ok]
    · congr 2
      apply tab_congr
      intro p hp
      rw [map_tab, row]
    · apply mapM_ok
      intro v _
      rw [row]
      exact fdiv_ok (h p hp)
  · rintro ⟨p, hp, hb, h0⟩ a ha
    have ha : SelfF.standardFilter savgol (arr P nb f) = .ok a := ha
    unfold SelfF.standardFilter arr at ha
    obtain ⟨_, h1, -⟩ := bind_ok_iff.mp ha
    obtain ⟨v, -, h2⟩ := (mapM_both h1).1 _ (mem_tab.mpr ⟨p, hp, rfl⟩)
    obtain ⟨u, -, h3⟩ := (mapM_both h2).1 _ (mem_tab.mpr ⟨0, hb, rfl⟩)
    rw [row, h0] at h3
    have : FDiv.fdiv (f p 0) (0 : K) = .error .nonFinite := if_pos rfl
    rw [this] at h3
    cases h3

/-- two profiles, not smoothed -/
example : SelfF.filtered (K := ℚ) (fun a => .ok a) ⟨2, [[1, 3], [2, 2]]⟩ .standard = .ok ⟨2, [[1/4, 3/4], [1/2, 1/2]]⟩ := by decide +kernel

/-- C65: phase differences given turn by turn are read at the two indices of the fit; where they agree, the fit is that with this one phase
difference.  An index beyond the table raises IndexError. -/
theorem C65_phase_table (L : MathLib K) (m : Fit.FitMach K) (w : Arr2 K) {l : List K} (hl : m.phi12 = .turns l) :
    (∀ a, npGet l m.machineRefFrame = .ok a → npGet l (m.beamRefFrame * m.dturns) = .ok a →
      Fit.fitSynchPartX L m w = Fit.fitSynchPartX L { m with phi12 := .number a } w) ∧
    ((npGet l m.machineRefFrame = .error (.exc .indexError) ∨ npGet l (m.beamRefFrame * m.dturns) = .error (.exc .indexError)) →
      ∀ r, Fit.fitSynchPartX L m w ≠ .ok r) := by
  constructor
  · intro a h1 h2
    unfold Fit.fitSynchPartX Fit.potentials Fit.phi12At
    dsimp only
    simp only [hl, h1, h2]
  · intro h r hr
    unfold Fit.fitSynchPartX at hr
    obtain ⟨_, -, hr⟩ := bind_ok_iff.mp hr
    obtain ⟨_, -, hr⟩ := bind_ok_iff.mp hr
    obtain ⟨_, -, hr⟩ := bind_ok_iff.mp hr
    obtain ⟨_, -, hr⟩ := bind_ok_iff.mp hr
    obtain ⟨_, h1, -⟩ := bind_ok_iff.mp hr
    unfold Fit.potentials Fit.phi12At at h1
    simp only [hl] at h1
    obtain ⟨_, k1, h1⟩ := bind_ok_iff.mp h1
    obtain ⟨_, -, h1⟩ := bind_ok_iff.mp h1
    obtain ⟨_, -, h1⟩ := bind_ok_iff.mp h1
    obtain ⟨_, -, h1⟩ := bind_ok_iff.mp h1
    obtain ⟨_, -, h1⟩ := bind_ok_iff.mp h1
    obtain ⟨_, -, h1⟩ := bind_ok_iff.mp h1
    obtain ⟨_, -, h1⟩ := bind_ok_iff.mp h1
    obtain ⟨_, k2, h1⟩ := bind_ok_iff.mp h1
    rcases h with h | h
    · rw [h] at k1; cases k1
    · rw [h] at k2; cases k2

/-- phase differences turn by turn, all of them zero, and a table that is too short -/
example : Fit.fitSynchPartX libLin { fitMach with phi12 := .turns [0, 0, 0, 0, 0, 0, 0] } ⟨10, [tab 10 straight, tab 10 straight, tab 10 straight]⟩
      = .ok (-5 / 2, 2, 8) ∧
    Fit.fitSynchPartX libLin { fitMach with phi12 := .turns [0, 0] } ⟨10, [tab 10 straight, tab 10 straight, tab 10 straight]⟩
      = .error (.exc .indexError) := by decide +kernel

end

section
open Verif.MObj
variable {K : Type} [Field K] [LinearOrder K] [FloorRing K]

/-- C109: with whole number of bins `n` and bin width `w`, and without a limit given, the reconstructed area ends at `n w`. -/
theorem C109_area_end {L : MathLib K} {pos : List (Val K)} {kw : Dict K} (hnd : (kw.map Prod.fst).Nodup) {o : Dict K}
    {arrays : Option (MachineOut K)} (h : newMachine L pos kw = .ok (o, arrays)) {n : ℤ} {w : K} (hn : argument pos kw "nbins" = some (.int n))
    (hw : argument pos kw "dtbin" = some (.num w)) (hmax : (kw.lookup "max_dt").getD .none = .none) :
    getattr o "max_dt" = .ok (.num (n * w)) := by
  obtain ⟨-, -, -, -, h5, -⟩ := C109_attributes hnd h
  obtain ⟨n', w', e1, e2, e3⟩ := h5 hmax
  rw [hn] at e1
  rw [hw] at e2
  cases e1
  cases e2
  rw [e3]
  rfl

/-- C109: and a whole number if the bin width is one. -/
theorem C109_area_end_whole {L : MathLib K} {pos : List (Val K)} {kw : Dict K} (hnd : (kw.map Prod.fst).Nodup) {o : Dict K}
    {arrays : Option (MachineOut K)} (h : newMachine L pos kw = .ok (o, arrays)) {n w : ℤ} (hn : argument pos kw "nbins" = some (.int n))
    (hw : argument pos kw "dtbin" = some (.int w)) (hmax : (kw.lookup "max_dt").getD .none = .none) :
    getattr o "max_dt" = .ok (.int (n * w)) := by
  obtain ⟨-, -, -, -, h5, -⟩ := C109_attributes hnd h
  obtain ⟨n', w', e1, e2, e3⟩ := h5 hmax
  rw [hn] at e1
  rw [hw] at e2
  cases e1
  cases e2
  rw [e3]
  rfl

/-- C111: the same for machines made from programs. -/
theorem C111_area_end {L : MathLib K} {pos : List (Val K)} {kw : Dict K} (hnd : (kw.map Prod.fst).Nodup) {fuel : Nat} {o : Dict K}
    {arrays : Option (Prog.POut K)} (h : PMObj.newProgramsMachine L pos kw fuel = .ok (o, arrays)) {n : ℤ} {w : K}
    (hn : PMObj.argument pos kw "nbins" = some (.int n)) (hw : PMObj.argument pos kw "dtbin" = some (.num w))
    (hmax : (kw.lookup "max_dt").getD .none = .none) : getattr o "max_dt" = .ok (.num (n * w)) := by
  obtain ⟨-, -, -, -, h5, -⟩ := C111_attributes hnd h
  obtain ⟨n', w', e1, e2, e3⟩ := h5 hmax
  rw [hn] at e1
  rw [hw] at e2
  cases e1
  cases e2
  rw [e3]
  rfl

/-- C111: and a whole number if the bin width is one. -/
theorem C111_area_end_whole {L : MathLib K} {pos : List (Val K)} {kw : Dict K} (hnd : (kw.map Prod.fst).Nodup) {fuel : Nat} {o : Dict K}
    {arrays : Option (Prog.POut K)} (h : PMObj.newProgramsMachine L pos kw fuel = .ok (o, arrays)) {n w : ℤ}
    (hn : PMObj.argument pos kw "nbins" = some (.int n)) (hw : PMObj.argument pos kw "dtbin" = some (.int w))
    (hmax : (kw.lookup "max_dt").getD .none = .none) : getattr o "max_dt" = .ok (.int (n * w)) := by
  obtain ⟨-, -, -, -, h5, -⟩ := C111_attributes hnd h
  obtain ⟨n', w', e1, e2, e3⟩ := h5 hmax
  rw [hn] at e1
  rw [hw] at e2
  cases e1
  cases e2
  rw [e3]
  rfl

/-- C111: a machine made from programs has one or two harmonic numbers, given as a list, as rows of a table or as a text of that length: a single number, no
value, an empty list or three of them are refused. -/
theorem C111_harmonics {L : MathLib K} {pos : List (Val K)} {kw : Dict K} (hnd : (kw.map Prod.fst).Nodup) {fuel : Nat}
    {r : Dict K × Option (Prog.POut K)} (h : PMObj.newProgramsMachine L pos kw fuel = .ok r) :
    (∃ l, PMObj.argument pos kw "harmonics" = some (.list l) ∧ (l.length = 1 ∨ l.length = 2)) ∨
    (∃ t, PMObj.argument pos kw "harmonics" = some (.table t) ∧ (t.length = 1 ∨ t.length = 2)) ∨
    ∃ s, PMObj.argument pos kw "harmonics" = some (.text s) ∧ (s.length = 1 ∨ s.length = 2) := by
  obtain ⟨-, -, -, ⟨v, n, h1, h2, h3⟩, -⟩ := C111_refused hnd h
  unfold PMObj.lenOf at h2
  cases v with
  | list l => cases h2; exact Or.inl ⟨l, h1, h3⟩
  | table t => cases h2; exact Or.inr (Or.inl ⟨t, h1, h3⟩)
  | text s => cases h2; exact Or.inr (Or.inr ⟨s, h1, h3⟩)
  | _ => cases h2

/-- bins of width 2; programs that are no tables -/
example : attrOf (tenArgs.take 9 ++ [.int 2]) [] "max_dt" = .ok (.int 12) ∧
    (PMObj.newProgramsMachine libQ ((rampArgs (.list [1, 2]) rampVolt).set 1 (.list [1, 2])) rampPhase 50).map (fun r => r.2.isSome)
      = .error (.exc .indexError) := by decide +kernel

end
end Verif.Props
