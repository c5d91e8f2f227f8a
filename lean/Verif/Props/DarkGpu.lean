import Verif.Props.Dark
import Verif.Props.WiderGpu

/-!
# Particles that see no signal, on the GPU (C128)
-/

namespace Verif.Props
open Finset Verif.Spec Verif.Tomo Verif.Recon

variable {K : Type} [Field K] [LinearOrder K] [IsStrictOrderedRing K] {n n' P nb : ℕ} {x : ℕ → ℕ → ℕ} {wf : ℕ → ℕ → K}

/-- C128 for `reconstruct_cuda` (partial), for every block size and whatever fresh device arrays contain.  Missing, as on the processor:
particles without signal that share bins with the others or change the largest number of particles in a bin. -/
theorem C128_cuda_partial {B Q : ℕ} (hB : 0 < B) (hQ : 0 < Q) (hQ' : Q ≤ 512) (sqrt : K → K) (empty empty' : ℕ → K) (h0 : 0 < n)
    (hn : n ≤ n') (hP : 0 < P) (hb : 0 < nb) (hx : InRange n' P nb x) (hd : DarkFrom n n' P x wf) (ha : ApartFrom n n' P x)
    (hm : maxCount n' P nb x = maxCount n P nb x) (niter : ℕ) :
    (∀ st, (Cuda.reconstruct B Q sqrt empty (xbuf n P x) (flat P nb wf) niter nb n P).2 = .ok st → ∃ w : ℕ → K, st.weights = tab n w ∧
      (Cuda.reconstruct B Q sqrt empty' (xbuf n' P x) (flat P nb wf) niter nb n' P).2
        = .ok ⟨tab n' fun i => if i < n then w i else 0, st.flatRec, st.discr⟩) ∧
    ∀ st, (Cuda.reconstruct B Q sqrt empty' (xbuf n' P x) (flat P nb wf) niter nb n' P).2 = .ok st →
      ∃ st, (Cuda.reconstruct B Q sqrt empty (xbuf n P x) (flat P nb wf) niter nb n P).2 = .ok st := by
  rw [C48_same_as_cpp hB hQ hQ' sqrt empty hP hb (dark_inRange hn hx), C48_same_as_cpp hB hQ hQ' sqrt empty' hP hb hx]
  obtain ⟨h1, _, h3, _⟩ := C128_apart_partial sqrt h0 hn hP hb hx hd ha hm niter
  exact ⟨h1, h3⟩

/-- C128 for `reconstruct_cupy` (partial).  Missing, beside the cases of `C128_cuda_partial`: fewer of the other particles than columns
(`C128_violated_cupy`). -/
theorem C128_cupy_partial (sqrt : K → K) (hn : n ≤ n') (hP : 0 < P) (hb : 0 < nb) (hnb : nb ≤ n) (hx : InRange n' P nb x)
    (hd : DarkFrom n n' P x wf) (ha : ApartFrom n n' P x) (hm : maxCount n' P nb x = maxCount n P nb x) (niter : ℕ) :
    (∀ st, Cuda.reconstructCupy sqrt (xbuf n P x) (flat P nb wf) niter nb n P = .ok st → ∃ w : ℕ → K, st.weights = tab n w ∧
      Cuda.reconstructCupy sqrt (xbuf n' P x) (flat P nb wf) niter nb n' P
        = .ok ⟨tab n' fun i => if i < n then w i else 0, st.flatRec, st.discr⟩) ∧
    ∀ st, Cuda.reconstructCupy sqrt (xbuf n' P x) (flat P nb wf) niter nb n' P = .ok st →
      ∃ st, Cuda.reconstructCupy sqrt (xbuf n P x) (flat P nb wf) niter nb n P = .ok st := by
  rw [C61_same_as_cpp_partial sqrt hP hb hnb (dark_inRange hn hx), C61_same_as_cpp_partial sqrt hP hb (by omega) hx]
  obtain ⟨h1, _, h3, _⟩ := C128_apart_partial sqrt (by omega) hn hP hb hx hd ha hm niter
  exact ⟨h1, h3⟩

/-- three particles in the bins 3 and 4 (those of `twoClouds`), then one in bin 0 and one in bin 1 -/
def xFront : ℕ → ℕ → ℕ := fun i p => if i < 3 then twoClouds.x i p + 3 else i - 3

/-- C128 is violated by `reconstruct_cupy`, with particles without signal that meet no other and leave the largest number of particles in a
bin as it is: with them there are as many particles as columns, and only then is the fullest bin among those that are searched. -/
theorem C128_violated_cupy :
    DarkFrom 3 5 2 xFront fBehind ∧ ApartFrom 3 5 2 xFront ∧ maxCount 5 2 5 xFront = maxCount 3 2 5 xFront ∧
    (Cuda.reconstructCupy id (xbuf 3 2 xFront) (flat 2 5 fBehind) 1 5 3 2).toOption.map (·.weights) = some [3/8, 13/8, 9/8] ∧
    (Cuda.reconstructCupy id (xbuf 5 2 xFront) (flat 2 5 fBehind) 1 5 5 2).toOption.map (·.weights) = some [31/200, 52/25, 89/100, 0, 0] ∧
    (run id 3 2 5 xFront fBehind 1).2.toOption.map (·.weights) = some [31/200, 52/25, 89/100] := by
  refine ⟨fun j hj hj' p hp => ?_, fun j hj hj' i hi p hp => ?_, by decide +kernel, by decide +kernel, by decide +kernel, by decide +kernel⟩
  · interval_cases j <;> interval_cases p <;> decide +kernel
  · interval_cases j <;> interval_cases i <;> interval_cases p <;> decide +kernel

-- the hypotheses of `C128_cupy_partial`: three particles and three columns, two particles more
example : InRange 5 2 3 xCrowd ∧ DarkFrom 3 5 2 xCrowd wfDark ∧ ApartFrom 3 5 2 xCrowd ∧ maxCount 5 2 3 xCrowd = maxCount 3 2 3 xCrowd ∧
    (Cuda.reconstructCupy id (xbuf 3 2 xCrowd) (flat 2 3 wfDark) 1 3 3 2).toOption.map (·.weights) = some [31/200, 52/25, 89/100] ∧
    (Cuda.reconstructCupy id (xbuf 5 2 xCrowd) (flat 2 3 wfDark) 1 3 5 2).toOption.map (·.weights) = some [31/200, 52/25, 89/100, 0, 0] ∧
    (Cuda.reconstruct 4 32 id (fun _ => 7) (xbuf 5 2 xCrowd) (flat 2 3 wfDark) 1 3 5 2).2.toOption.map (·.weights)
      = some [31/200, 52/25, 89/100, 0, 0] :=
  ⟨fun i hi => dark_crowd.1 i (by omega), fun j hj hj' => dark_crowd.2.1 j hj (by omega), fun j hj hj' => dark_crowd.2.2 j hj (by omega),
    by decide +kernel, by decide +kernel, by decide +kernel, by decide +kernel⟩

end Verif.Props
