import Verif.Lemmas.Tomography

/-!
# Permuting the particles (helper lemmas)
-/

set_option linter.unusedSectionVars false

namespace Verif.Recon
open Finset Verif.Spec

variable {K : Type} [Field K] [LinearOrder K] [IsStrictOrderedRing K]
variable {npart : ℕ} (σ : Equiv.Perm ℕ) (hσ : ∀ i, σ i < npart ↔ i < npart)
include hσ

theorem sum_perm {β : Type _} [AddCommMonoid β] (f : ℕ → β) :
    ∑ i ∈ range npart, f (σ i) = ∑ i ∈ range npart, f i :=
  sum_equiv σ (by simp [hσ]) (fun _ _ => rfl)

theorem proj_perm (x : ℕ → ℕ → ℕ) (w : ℕ → K) :
    proj npart (fun i => x (σ i)) (fun i => w (σ i)) = proj npart x w := by
  funext p b
  exact sum_perm σ hσ (fun i => if x i p = b then w i else 0)

theorem count_perm (x : ℕ → ℕ → ℕ) : count npart (fun i => x (σ i)) = count npart x := by
  funext p b
  unfold count
  rw [card_filter, card_filter]
  exact sum_perm σ hσ (fun i => if x i p = b then 1 else 0)

theorem recip_perm (nprof nbins : ℕ) (x : ℕ → ℕ → ℕ) :
    recip K npart nprof nbins (fun i => x (σ i)) = recip K npart nprof nbins x := by
  unfold recip maxCount
  rw [count_perm σ hσ]

theorem inRange_perm {nprof nbins : ℕ} {x : ℕ → ℕ → ℕ} (hx : InRange npart nprof nbins x) :
    InRange npart nprof nbins (fun i => x (σ i)) := fun i hi p hp => hx (σ i) ((hσ i).mpr hi) p hp

theorem seq_perm (keep : Bool) (nprof nbins : ℕ) (x : ℕ → ℕ → ℕ) (wf : ℕ → ℕ → K) (k : ℕ) :
    seq keep npart nprof nbins (fun i => x (σ i)) wf k
      = (fun i => W keep npart nprof nbins x wf k (σ i), R keep npart nprof nbins x wf k) := by
  induction k with
  | zero => rfl
  | succ k ih =>
    simp only [seq]
    rw [ih]
    simp only [seqStep, recip_perm σ hσ]
    rw [proj_perm σ hσ]
    rfl

theorem good_perm (keep : Bool) (nprof nbins : ℕ) (x : ℕ → ℕ → ℕ) (wf : ℕ → ℕ → K) (k : ℕ) :
    Good keep npart nprof nbins (fun i => x (σ i)) wf k ↔ Good keep npart nprof nbins x wf k := by
  unfold Good W
  simp only [seq_perm σ hσ]
  constructor
  · intro h m hm
    have := h m hm
    rwa [sum_perm σ hσ (fun i => W keep npart nprof nbins x wf m i)] at this
  · intro h m hm
    rw [sum_perm σ hσ (fun i => W keep npart nprof nbins x wf m i)]
    exact h m hm

end Verif.Recon
