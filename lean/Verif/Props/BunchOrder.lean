import Verif.Lemmas.ReconPerm
import Verif.Props.Multi
import Mathlib.Logic.Equiv.Basic

/-!
# C124 — the order in which the bunches are given
-/

set_option linter.unusedSectionVars false

namespace Verif.Props
open Finset Verif.Spec Verif.Recon Verif.Multi

variable {K : Type} [Field K] [LinearOrder K] [IsStrictOrderedRing K]

/-- the same bunches, given in another order: bunch `c` is what was bunch `σ c` -/
def reordered (S : Setup) (σ : Equiv.Perm ℕ) : Setup :=
  ⟨S.nc, S.npart, S.nprof, S.nbins, S.x, fun c => S.ctr (σ c), fun c => S.cl (σ c), fun c => S.cr (σ c)⟩

theorem reordered_ok {S : Setup} (h : S.Ok) (σ : Equiv.Perm ℕ) (hσ : ∀ c, σ c < S.nc ↔ c < S.nc) : (reordered S σ).Ok :=
  ⟨h.nc, h.nprof, h.nbins, fun c hc => h.image (σ c) ((hσ c).mpr hc), fun c hc => h.cuts (σ c) ((hσ c).mpr hc)⟩

theorem reordered_count {S : Setup} (σ : Equiv.Perm ℕ) (hσ : ∀ c, σ c < S.nc ↔ c < S.nc) :
    countAll S.nc S.npart S.x (fun c => S.ctr (σ c)) = countAll S.nc S.npart S.x S.ctr := by
  funext p b
  exact sum_perm σ hσ fun c => count S.npart (moved S.x (S.ctr c)) p b

theorem reordered_recip {S : Setup} (σ : Equiv.Perm ℕ) (hσ : ∀ c, σ c < S.nc ↔ c < S.nc) :
    recipAll K S.nc S.npart S.nprof S.nbins S.x (fun c => S.ctr (σ c)) = recipAll K S.nc S.npart S.nprof S.nbins S.x S.ctr := by
  funext p b
  unfold recipAll maxAll
  rw [reordered_count σ hσ]

theorem reordered_seq {S : Setup} (σ : Equiv.Perm ℕ) (hσ : ∀ c, σ c < S.nc ↔ c < S.nc) (wf : ℕ → ℕ → K) (k : ℕ) :
    WM (reordered S σ) wf k = (fun c => WM S wf k (σ c)) ∧ RM (reordered S σ) wf k = RM S wf k := by
  induction k with
  | zero => exact ⟨rfl, rfl⟩
  | succ k ih =>
    obtain ⟨ih1, ih2⟩ := ih
    have hR : RM (reordered S σ) wf (k + 1) = RM S wf (k + 1) := by
      rw [RM_succ, RM_succ, ih2, ih1]
      have : projAll S.nc S.npart S.x (fun c => S.ctr (σ c)) (fun c => WM S wf k (σ c)) = projAll S.nc S.npart S.x S.ctr (WM S wf k) := by
        funext p b
        exact sum_perm σ hσ fun c => proj S.npart (moved S.x (S.ctr c)) (WM S wf k c) p b
      show normRows S.nbins (fun p b => RM S wf k p b + projAll S.nc S.npart S.x (fun c => S.ctr (σ c)) (fun c => WM S wf k (σ c)) p b) = _
      rw [this]
    refine ⟨?_, hR⟩
    funext c i
    show max (WM (reordered S σ) wf k c i + backAll S.nprof S.x (fun c => S.ctr (σ c)) (fun c => S.cl (σ c)) (fun c => S.cr (σ c))
      (fun p b => (wf p b - RM (reordered S σ) wf (k + 1) p b) *
        recipAll K S.nc S.npart S.nprof S.nbins S.x (fun c => S.ctr (σ c)) p b) c i) 0 = _
    rw [hR, ih1, reordered_recip σ hσ]
    rfl

/-- C124: if a multi-bunch reconstruction returns for two orders of the bunches, every particle of every bunch has the same weight, and
the recreated waterfall and the discrepancies of the whole are the same. -/
theorem C124_order_partial (sqrt : K → K) (junk : K) {S : Setup} (h : S.Ok) {wf : ℕ → ℕ → K} (hpos : ∀ p b, 0 ≤ wf p b) (niter : ℕ)
    (σ : Equiv.Perm ℕ) (hσ : ∀ c, σ c < S.nc ↔ c < S.nc) {s t : MState K} (h1 : (multi sqrt junk S wf niter).2 = .ok s)
    (h2 : (multi sqrt junk (reordered S σ) wf niter).2 = .ok t) :
    ∃ w : ℕ → ℕ → K, s.weights = flat S.nc S.npart w ∧ t.weights = flat S.nc S.npart (fun c => w (σ c)) ∧
      t.flatRec = s.flatRec ∧ t.discr = s.discr := by
  have e1 : s = outM sqrt S wf niter := by
    rcases multi_run sqrt junk h hpos niter with ⟨_, he⟩ | ⟨_, he⟩ | ⟨f, _, _, _, he⟩ <;> rw [multi, he] at h1 <;> cases h1
    rfl
  have e2 : t = outM sqrt (reordered S σ) wf niter := by
    rcases multi_run sqrt junk (reordered_ok h σ hσ) hpos niter with ⟨_, he⟩ | ⟨_, he⟩ | ⟨f, _, _, _, he⟩ <;>
      rw [multi, he] at h2 <;> cases h2
    rfl
  subst e1 e2
  refine ⟨WM S wf niter, rfl, ?_, ?_, ?_⟩
  · show flat S.nc S.npart (WM (reordered S σ) wf niter) = _
    rw [(reordered_seq σ hσ wf niter).1]
  · show flat S.nprof S.nbins (RM (reordered S σ) wf (niter + 1)) = _
    rw [(reordered_seq σ hσ wf (niter + 1)).2]
    rfl
  · show tab (niter + 1) (fun m => sqrt (meanSquare S.nprof S.nbins (diffM (reordered S σ) wf m))) = _
    apply tab_congr
    intro m _
    unfold diffM
    rw [(reordered_seq σ hσ wf (m + 1)).2]

/-- C124: a reconstruction that returns still returns in any order that keeps the first bunch the first. -/
theorem C124_returns (sqrt : K → K) (junk : K) {S : Setup} (h : S.Ok) {wf : ℕ → ℕ → K} (hpos : ∀ p b, 0 ≤ wf p b) (niter : ℕ)
    (σ : Equiv.Perm ℕ) (hσ : ∀ c, σ c < S.nc ↔ c < S.nc) (h0 : σ 0 = 0) {s : MState K} (h1 : (multi sqrt junk S wf niter).2 = .ok s) :
    ∃ t, (multi sqrt junk (reordered S σ) wf niter).2 = .ok t := by
  have hg : GoodM (reordered S σ) wf niter := by
    intro m hm
    rcases multi_run sqrt junk h hpos niter with ⟨hg, he⟩ | ⟨_, he⟩ | ⟨f, _, _, _, he⟩
    · rw [(reordered_seq σ hσ wf m).1]
      dsimp only
      rw [h0]
      exact hg m hm
    · rw [multi, he] at h1; cases h1
    · rw [multi, he] at h1; cases h1
  rcases multi_run sqrt junk (reordered_ok h σ hσ) hpos niter with ⟨_, he⟩ | ⟨hn, _⟩ | ⟨f, hf, _, hn, _⟩
  · exact ⟨_, by rw [multi, he]⟩
  · exact absurd (fun m hm => hg m (by omega)) hn
  · exact absurd (fun m hm => hg m (by omega)) hn

/-- C124 is violated for failures: with the empty bunch given first the reconstruction raises, with the other first it returns. -/
theorem C124_violated_empty_first :
    (multi id 0 ⟨2, 1, 1, 2, fun _ _ => 0, fun c => c, fun c => c, fun c => c + 1⟩ (fun _ b => if b = 0 then 0 else (1 : ℚ)) 3).2
      = .error (.exc .allZero) ∧
    (multi id 0 (reordered ⟨2, 1, 1, 2, fun _ _ => 0, fun c => c, fun c => c, fun c => c + 1⟩ (Equiv.swap 0 1))
      (fun _ b => if b = 0 then 0 else (1 : ℚ)) 3).2.toOption.map (·.weights) = some [1, 0] := by
  constructor <;> decide +kernel

/-- C124 is violated for the discrepancies of the bunches: the bunch at the bins 2, 3 is recreated exactly; given second it has the
discrepancy of the other bunch, given first it has none. (`sqrt` is left out: mean squares.) -/
theorem C124_violated_split :
    (multi id 0 twoBunches wfB 0).2.toOption.map (·.split) = some [1/1024, 1/1024] ∧
    (multi id 0 (reordered twoBunches (Equiv.swap 0 1)) wfB 0).2.toOption.map (·.split) = some [0, 1/1024] := by
  constructor <;> decide +kernel

/-- the hypotheses of `C124_order_partial`, and what both orders return -/
example : twoBunches.Ok ∧ (∀ c, Equiv.swap 0 1 c < twoBunches.nc ↔ c < twoBunches.nc) ∧ (∀ p b, 0 ≤ wfB p b) ∧
    (multi id 0 twoBunches wfB 2).2.toOption.map (·.weights) = some [3/8, 5/8, 1/2, 1/2] ∧
    (multi id 0 (reordered twoBunches (Equiv.swap 0 1)) wfB 2).2.toOption.map (·.weights) = some [1/2, 1/2, 3/8, 5/8] := by
  refine ⟨twoBunches_ok, ?_, wfB_nonneg, by decide +kernel, by decide +kernel⟩
  intro c
  show Equiv.swap 0 1 c < 2 ↔ c < 2
  rcases c with _ | _ | c
  · simp
  · simp
  · rw [Equiv.swap_apply_of_ne_of_ne (by omega) (by omega)]

/-- an order of three bunches that keeps the first -/
example : ∃ σ : Equiv.Perm ℕ, σ 0 = 0 ∧ σ ≠ Equiv.refl ℕ ∧ ∀ c, σ c < 3 ↔ c < 3 := by
  refine ⟨Equiv.swap 1 2, by decide, fun e => absurd (congrArg (· 1) e) (by decide), ?_⟩
  intro c
  rcases c with _ | _ | _ | c
  · decide
  · decide
  · decide
  · rw [Equiv.swap_apply_of_ne_of_ne (by omega) (by omega)]

end Verif.Props
