import Verif.Props.Wider
import Verif.Props.Cuda

/-!
# Columns of the image that no particle visits, on the GPU (C126)
-/

namespace Verif.Props
open Finset Verif.Spec Verif.Tomo Verif.Recon

variable {K : Type} [Field K] [LinearOrder K] [IsStrictOrderedRing K] {npart nprof m nbins a : ℕ} {x : ℕ → ℕ → ℕ} {f wf : ℕ → ℕ → K}

/-- C126 for `reconstruct_cuda`, for every block size and whatever fresh device arrays contain: the wider image gives the weights of the
smaller one, the same recreated profiles with nothing in the margin, and the same error if there is one. -/
theorem C126_cuda {B Q : ℕ} (hB : 0 < B) (hQ : 0 < Q) (hQ' : Q ≤ 512) {sqrt : K → K} (hsq : ∀ v, 0 ≤ v → sqrt v ^ 2 = v)
    (empty empty' : ℕ → K) (h : Embedded nprof m nbins a f wf) (hx : InRange npart nprof m x) (hp : 0 < nprof) (hm : 0 < m) (niter : ℕ) :
    (∀ t, (Cuda.reconstruct B Q sqrt empty (xbuf npart nprof x) (flat nprof m f) niter m npart nprof).2 = .ok t →
      ∃ u, (Cuda.reconstruct B Q sqrt empty' (xbuf npart nprof fun i p => x i p + a) (flat nprof nbins wf) niter nbins npart nprof).2 = .ok u ∧
        Widened nprof m nbins a niter wf t u) ∧
    ∀ e, (Cuda.reconstruct B Q sqrt empty (xbuf npart nprof x) (flat nprof m f) niter m npart nprof).2 = .error e →
      (Cuda.reconstruct B Q sqrt empty' (xbuf npart nprof fun i p => x i p + a) (flat nprof nbins wf) niter nbins npart nprof).2 = .error e := by
  have hfit := h.fits
  rw [C48_same_as_cpp hB hQ hQ' sqrt empty hp hm hx, C48_same_as_cpp hB hQ hQ' sqrt empty' hp (by omega) (wider_inRange h.fits hx)]
  exact (C126_run hsq h hx hp hm niter).2

/-- C126 for `reconstruct_cupy` (partial).  Missing: images with more columns than there are particles (`C126_violated_cupy`). -/
theorem C126_cupy_partial {sqrt : K → K} (hsq : ∀ v, 0 ≤ v → sqrt v ^ 2 = v) (h : Embedded nprof m nbins a f wf)
    (hx : InRange npart nprof m x) (hp : 0 < nprof) (hm : 0 < m) (hn : nbins ≤ npart) (niter : ℕ) :
    (∀ t, Cuda.reconstructCupy sqrt (xbuf npart nprof x) (flat nprof m f) niter m npart nprof = .ok t →
      ∃ u, Cuda.reconstructCupy sqrt (xbuf npart nprof fun i p => x i p + a) (flat nprof nbins wf) niter nbins npart nprof = .ok u ∧
        Widened nprof m nbins a niter wf t u) ∧
    ∀ e, Cuda.reconstructCupy sqrt (xbuf npart nprof x) (flat nprof m f) niter m npart nprof = .error e →
      Cuda.reconstructCupy sqrt (xbuf npart nprof fun i p => x i p + a) (flat nprof nbins wf) niter nbins npart nprof = .error e := by
  have hfit := h.fits
  rw [C61_same_as_cpp_partial sqrt hp hm (by omega) hx, C61_same_as_cpp_partial sqrt hp (by omega) hn (wider_inRange h.fits hx)]
  exact (C126_run hsq h hx hp hm niter).2

/-- `fOne` behind three empty columns -/
def fBehind : ℕ → ℕ → ℚ := fun p b => if b < 3 then 0 else fOne p (b - 3)

theorem fBehind_embedded : Embedded 2 2 5 3 fOne fBehind := by
  refine ⟨by decide, fun p _ b hb => ?_⟩
  unfold fBehind
  rw [if_neg (by omega), Nat.add_sub_cancel_left]

/-- C126 is violated by `reconstruct_cupy` once the image has more columns than there are particles: the fullest bin is looked for among the
first `n_particles` bins only, so three empty columns in front of the bunch change the weights of its three particles. -/
theorem C126_violated_cupy :
    (Cuda.reconstructCupy id (xbuf 3 2 twoClouds.x) (flat 2 2 fOne) 1 2 3 2).toOption.map (·.weights) = some [31/200, 52/25, 89/100] ∧
    (Cuda.reconstructCupy id (xbuf 3 2 fun i p => twoClouds.x i p + 3) (flat 2 5 fBehind) 1 5 3 2).toOption.map (·.weights)
      = some [3/8, 13/8, 9/8] ∧ Embedded 2 2 5 3 fOne fBehind ∧ InRange 3 2 2 twoClouds.x :=
  ⟨by decide +kernel, by decide +kernel, fBehind_embedded, by unfold InRange; decide +kernel⟩

-- the case of the witness with `reconstruct_cuda`: the empty columns change nothing
example : (Cuda.reconstruct 4 32 id (fun _ => 7) (xbuf 3 2 fun i p => twoClouds.x i p + 3) (flat 2 5 fBehind) 1 5 3 2).2.toOption.map (·.weights)
    = some [31/200, 52/25, 89/100] := by decide +kernel

-- one further column, no more columns than particles
example : (Cuda.reconstructCupy id (xbuf 3 2 fun i p => twoClouds.x i p + 1) (flat 2 3 fun p b => if b = 0 then 0 else fOne p (b - 1)) 1 3 3 2).toOption.map
    (·.weights) = some [31/200, 52/25, 89/100] := by decide +kernel

end Verif.Props
