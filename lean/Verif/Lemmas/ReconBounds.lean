import Verif.Lemmas.ReconRun

/-!
# Which coordinates make the counting loop leave its buffer (helper lemmas)
-/

set_option linter.unusedSectionVars false

namespace Verif.Recon
open Finset Verif.Spec

variable {K : Type} [Add K] [Zero K] [One K]

theorem countParticles_total {npart nprof nbins : ℕ} (xi : ℕ → ℕ → ℤ) :
    ((∀ i, i < npart → ∀ p, p < nprof → 0 ≤ (p * nbins : ℕ) + xi i p ∧ (p * nbins : ℕ) + xi i p < (nprof * nbins : ℕ)) →
      ∃ r, countParticlesInBin (tab (nprof * nbins) fun _ => (0 : K)) (flat npart nprof xi) nprof npart nbins = .ok r
        ∧ r.length = nprof * nbins) ∧
    ((∃ i, i < npart ∧ ∃ p, p < nprof ∧ ¬ (0 ≤ (p * nbins : ℕ) + xi i p ∧ (p * nbins : ℕ) + xi i p < (nprof * nbins : ℕ))) →
      countParticlesInBin (tab (nprof * nbins) fun _ => (0 : K)) (flat npart nprof xi) nprof npart nbins = .error .oob) := by
  let good : ℕ → ℕ → Prop := fun i p =>
    0 ≤ (p * nbins : ℕ) + xi i p ∧ (p * nbins : ℕ) + xi i p < (nprof * nbins : ℕ)
  unfold countParticlesInBin
  have inner : ∀ i, i < npart → ∀ r : List K, r.length = nprof * nbins →
      ((∀ p, p < nprof → good i p) → ∃ r', forN nprof (fun j r => do
        let bin ← rd (flat npart nprof xi) ((i * nprof + j : Nat) : Int)
        let c ← rd r ((j * nbins : Nat) + bin)
        upd r ((j * nbins : Nat) + bin) (c + 1)) r = .ok r' ∧ r'.length = nprof * nbins) ∧
      ((∃ p, p < nprof ∧ ¬ good i p) → forN nprof (fun j r => do
        let bin ← rd (flat npart nprof xi) ((i * nprof + j : Nat) : Int)
        let c ← rd r ((j * nbins : Nat) + bin)
        upd r ((j * nbins : Nat) + bin) (c + 1)) r = .error .oob) := by
    intro i hi r hr
    apply forN_total (fun r : List K => r.length = nprof * nbins) (good i) hr
    · intro j r hj hr hg
      rw [rd_flat xi hi hj rfl, bind_ok]
      obtain ⟨v, hv⟩ := rd_eq_ok r hg.1 (by rw [hr]; exact hg.2)
      rw [hv, bind_ok]
      obtain ⟨l, h1, h2⟩ := upd_eq_ok r (v + 1) hg.1 (by rw [hr]; exact hg.2)
      exact ⟨l, h1, h2.trans hr⟩
    · intro j r hj hr hg
      rw [rd_flat xi hi hj rfl, bind_ok, rd_eq_oob r (by rw [hr]; exact hg)]; rfl
  have outer := forN_total (n := npart) (s := tab (nprof * nbins) fun _ => (0 : K)) (e := .oob)
    (f := fun i r => forN nprof (fun j r => do
        let bin ← rd (flat npart nprof xi) ((i * nprof + j : Nat) : Int)
        let c ← rd r ((j * nbins : Nat) + bin)
        upd r ((j * nbins : Nat) + bin) (c + 1)) r)
    (fun r : List K => r.length = nprof * nbins) (fun i => ∀ p, p < nprof → good i p) (by simp)
    (fun i r hi hr hg => (inner i hi r hr).1 hg)
    (fun i r hi hr hg => (inner i hi r hr).2 (by
      by_contra hc
      apply hg
      intro p hp
      by_contra hn
      exact hc ⟨p, hp, hn⟩))
  constructor
  · intro h; exact outer.1 (fun i hi p hp => h i hi p hp)
  · rintro ⟨i, hi, p, hp, hn⟩
    exact outer.2 ⟨i, hi, fun h => hn (h p hp)⟩

end Verif.Recon
