import Verif.Props.Union
import Verif.Props.Sensitive

/-!
# C123 — small changes of a multi-bunch measurement
-/

namespace Verif.Props
open Finset Verif.Spec Verif.Recon Verif.Multi

variable {K : Type} [Field K] [LinearOrder K] [IsStrictOrderedRing K]

/-- C123: when the multi-bunch reconstruction returns for two measurements, the first with a particle wherever there is signal, weights,
shares of the weights and recreated profiles of all bunches together differ as C120 says for the cloud of all particles. -/
theorem C123_sensitivity (sqrt : K → K) (junk : K) {S : Setup} (h : S.Ok) (hin : AllInside S) {wf wf' : ℕ → ℕ → K}
    (hpos : ∀ p b, 0 ≤ wf p b) (hpos' : ∀ p b, 0 ≤ wf' p b) (hw : Profiled S.nprof S.nbins wf)
    (hc : Covered (S.nc * S.npart) S.nprof S.nbins (unionCloud S) wf) (niter : ℕ) {s t : MState K}
    (h1 : (multi sqrt junk S wf niter).2 = .ok s) (h2 : (multi sqrt junk S wf' niter).2 = .ok t) :
    Within (S.nc * S.npart) S.nprof S.nbins (unionCloud S) wf wf' niter ⟨s.weights, s.flatRec, s.discr⟩ ⟨t.weights, t.flatRec, t.discr⟩ := by
  have e1 := congrArg Prod.snd (C123_union sqrt junk h hin hpos niter h1)
  have e2 := congrArg Prod.snd (C123_union sqrt junk h hin hpos' niter h2)
  obtain ⟨s', h3, h4⟩ := C120_run sqrt h.nprof (union_inRange h) hw hc niter e2
  have : s' = ⟨s.weights, s.flatRec, s.discr⟩ := by
    rw [e1] at h3
    exact (Except.ok.inj h3).symm
  rw [← this]
  exact h4

/-- C123: the common discrepancies reported for the two measurements, as in C120. -/
theorem C123_sensitivity_discrepancy {sqrt : K → K} (hs : ∀ a, 0 ≤ a → 0 ≤ sqrt a ∧ sqrt a ^ 2 = a) (junk : K) {S : Setup} (h : S.Ok)
    (hin : AllInside S) {wf wf' : ℕ → ℕ → K} (hpos : ∀ p b, 0 ≤ wf p b) (hpos' : ∀ p b, 0 ≤ wf' p b) (hw : Profiled S.nprof S.nbins wf)
    (hc : Covered (S.nc * S.npart) S.nprof S.nbins (unionCloud S) wf) {niter : ℕ} {s t : MState K}
    (h1 : (multi sqrt junk S wf niter).2 = .ok s) (h2 : (multi sqrt junk S wf' niter).2 = .ok t) :
    ∃ d d' : ℕ → K, s.discr = tab (niter + 1) d ∧ t.discr = tab (niter + 1) d' ∧ ∀ k, k ≤ niter →
      (d k - d' k) ^ 2 * ((S.nprof * S.nbins : ℕ) : K) ≤ (waterfallDist S.nprof S.nbins wf wf' + (S.nprof : K) *
        (2 * (sensitivity (S.nc * S.npart) S.nprof S.nbins (unionCloud S) wf k * waterfallDist S.nprof S.nbins wf wf') /
          startTotal (S.nc * S.npart) S.nprof S.nbins (unionCloud S) wf)) ^ 2 :=
  C120_discrepancy hs h.nprof (union_inRange h) hw hc (.inl ⟨congrArg Prod.snd (C123_union sqrt junk h hin hpos niter h1),
    congrArg Prod.snd (C123_union sqrt junk h hin hpos' niter h2)⟩)

/-- two measurements of the two bunches that meet the hypotheses and for which both reconstructions return -/
example : twoBunches.Ok ∧ AllInside twoBunches ∧ (∀ p b, 0 ≤ wfB p b) ∧ Profiled 2 4 wfB ∧
    Covered (2 * 2) 2 4 (unionCloud twoBunches) wfB ∧
    (multi id 0 twoBunches wfB 2).2.toOption.map (·.weights) = some [3/8, 5/8, 1/2, 1/2] ∧
    (multi id 0 twoBunches (fun _ _ => (1/4 : ℚ)) 2).2.toOption.map (·.weights) = some [1/2, 1/2, 1/2, 1/2] := by
  refine ⟨twoBunches_ok, twoBunches_inside, wfB_nonneg, ⟨fun p _ b _ => wfB_nonneg p b, by decide +kernel⟩, ?_, by decide +kernel,
    by decide +kernel⟩
  intro p hp b hb _
  exact ⟨b, hb, by interval_cases p <;> interval_cases b <;> decide +kernel⟩

end Verif.Props
