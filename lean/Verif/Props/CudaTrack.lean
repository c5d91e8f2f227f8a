import Verif.Lemmas.CudaTrack
import Verif.Props.Tracking

/-!
# C98 — tracking on the GPU does not depend on how the threads are scheduled
-/

set_option linter.unusedSectionVars false

namespace Verif.Props
open Verif.Spec Verif.Track Verif.Omp Verif.Par

section
variable {α : Type} [Add α] [Sub α] [Mul α]

/-- the device arrays before the call: phases and energies of the cloud `c`, outputs with contents `X` -/
def DeviceHolds (m : Memory α) (P n : ℕ) (X : ℕ → ℕ → α × α) (c : ℕ → α × α) : Prop :=
  Stores (reals m .dphi) (phis n c) ∧ Stores (reals m .denergy) (energies n c) ∧
  Stores (reals m (.xp 0)) (flat P n fun p i => (X p i).1) ∧ Stores (reals m (.yp 0)) (flat P n fun p i => (X p i).2)

/-- C98: whatever the block size and the interleaving of the threads of both launches, row `p`, column `i` of the GPU outputs is bit for
bit what the C++ routine puts there (with the same `sin`), in any arithmetic; and the call ends. -/
theorem C98_every_schedule (sin : α → α) {m : Mach α} {phi12 : α} {R : Program α} {P n d r s B : ℕ} {δ : Int}
    (hB : 0 < B) (hd : 0 < d) (hA : Agrees (spread m phi12 ((P - 1) * d)) ((P - 1) * d) R) (hr : r < P)
    (hs : (s : Int) = r * d + δ) (h1 : -(d : Int) < δ) (h2 : δ < d) (hsn : s ≤ (P - 1) * d)
    (X : ℕ → ℕ → α × α) (c : ℕ → α × α) {m₀ : Memory α} (h0 : DeviceHolds m₀ P n X c) :
    (∃ st Y, cppTrack sin (spread m phi12 ((P - 1) * d)) P n d r δ X c = .ok st ∧ Holds st.xp st.yp P n Y ∧
      ∀ m₁, Cuda.Tracks sin B m phi12 d r δ ((P - 1) * d : ℕ) n m₀ m₁ → ∀ p i, p < P → i < n →
        m₁ (.real (.xp 0) ((p * n + i : ℕ) : Int)) = (Y p i).1 ∧ m₁ (.real (.yp 0) ((p * n + i : ℕ) : Int)) = (Y p i).2) ∧
    ∃ m₁, Cuda.Tracks sin B m phi12 d r δ ((P - 1) * d : ℕ) n m₀ m₁ := by
  constructor
  · obtain ⟨st, Y, e1, e2, e3⟩ := C18_cuda_eq_cpp sin hB hd hA hr hs h1 h2 hsn X c
    refine ⟨st, Y, e1, e2, fun m₁ ht p i hp hi => ?_⟩
    obtain ⟨k1, k2⟩ := Cuda.tracks_ok h0.1 h0.2.1 h0.2.2.1 h0.2.2.2 e3 ht
    exact ⟨k1 _ _ (rd_flat (fun p i => (Y p i).1) hp hi rfl), k2 _ _ (rd_flat (fun p i => (Y p i).2) hp hi rfl)⟩
  · unfold Cuda.Tracks
    dsimp only
    obtain ⟨s₁, a1, a2⟩ := Cuda.exists_final (α := α) ⟨Cuda.hostPut n (if δ < 0 then (r : Int) - 1 else r) m₀, Cuda.grid (gridSize n B) B
      (Cuda.upThread sin { m with phi12 := List.replicate (((P - 1) * d : ℕ) + 1 : Int).toNat phi12 } d ((P - 1) * d : ℕ) n
        (if δ < 0 then (r : Int) - 1 else r) (r * d + δ))⟩
    by_cases h : (0 : Int) < r
    · obtain ⟨s₂, b1, b2⟩ := Cuda.exists_final (α := α) ⟨Cuda.hostGet n r s₁.mem, Cuda.grid (gridSize n B) B
        (Cuda.downThread sin { m with phi12 := List.replicate (((P - 1) * d : ℕ) + 1 : Int).toNat phi12 } d n r (r * d))⟩
      exact ⟨s₂.mem, s₁.mem, ⟨s₁, a1, a2, rfl⟩, by rw [if_pos h]; exact ⟨s₂, b1, b2, rfl⟩⟩
    · exact ⟨s₁.mem, s₁.mem, ⟨s₁, a1, a2, rfl⟩, by rw [if_neg h]⟩

/-- the hypotheses are met: four profiles three turns apart, two harmonics, five particles, blocks of four threads, started at profile 2
with one turn less; every device memory holding the arrays will do, for example this one -/
example (c : ℕ → ℚ × ℚ) (X : ℕ → ℕ → ℚ × ℚ) :
    ∃ m₀ : Memory ℚ, DeviceHolds m₀ 4 5 X c ∧ (0 : ℕ) < 4 ∧ Agrees (spread demoMach (1 / 3) 9) 9 demoProg ∧
      ((5 : ℕ) : Int) = 2 * (3 : ℕ) + (-1) := by
  have hst : ∀ l : List ℚ, Stores (fun i : Int => if 0 ≤ i then l.getD i.toNat 0 else 0) l := by
    intro l i v h
    rw [Omp.rd_some] at h
    simp [h.1, List.getD, h.2]
  refine ⟨memOf (fun a => match a with
    | .dphi => phis 5 c
    | .denergy => energies 5 c
    | .xp _ => flat 4 5 fun p i => (X p i).1
    | .yp _ => flat 4 5 fun p i => (X p i).2
    | _ => []) (fun _ => []) [], ⟨hst _, hst _, hst _, hst _⟩, by decide, ?_, by decide⟩
  constructor <;> first | rfl | (intro t ht; exact some_tab _ (by omega)) | skip
  intro t ht
  show (List.replicate 10 (1 / 3 : ℚ))[t]? = some (1 / 3)
  rw [List.getElem?_replicate, if_pos (by omega)]

/-! ## Single steps -/

/-- phase and energy of particle `t` -/
def particle (m : Memory α) (t : ℕ) : α × α := (m (.real .dphi t), m (.real .denergy t))

/-- every interleaving of the kernel moves each of the first `n` particles by `f` and changes nothing else -/
def Moves (kernel : ℕ → Thread α) (n B : ℕ) (f : α × α → α × α) : Prop :=
  ∀ m₀ : Memory α, Always ⟨m₀, Cuda.grid (gridSize n B) B kernel⟩ (fun m =>
    (∀ t, t < n → particle m t = f (particle m₀ t)) ∧
    ∀ x, (∀ t : ℕ, t < n → x ≠ .real .dphi t ∧ x ≠ .real .denergy t) → m x = m₀ x)

theorem moves_of {kernel : ℕ → Thread α} {n B : ℕ} {f : α × α → α × α} (hB : 0 < B) (hdone : ∀ t, n ≤ t → kernel t = .done)
    (hconf : ∀ m₀, ∀ t : ℕ, t < n → Conf m₀ (Cuda.Out2 .dphi .denergy) (Cuda.Own2 .dphi .denergy (fun k => k = (t : Int))) (kernel t))
    (hrun : ∀ m₀ : Memory α, ∀ t, t < n → particle ((kernel t).run m₀) t = f (particle m₀ t)) : Moves kernel n B f := by
  intro m₀
  have key := Cuda.particle_kernel (gridSize_cover hB) hdone (hconf m₀)
  refine ⟨key.terminates, key.progress, fun s hr hf => ?_⟩
  obtain ⟨k1, k2⟩ := key.result s hr hf
  refine ⟨fun t ht => ?_, k2⟩
  rw [← hrun m₀ t ht]
  exact Prod.ext (k1 t ht).1 (k1 t ht).2

/-- C98: the six kernels for a single step, under every interleaving: kicks change the energy, drifts the phase, and the combined kernels
are drift then kick (upwards) and kick then drift (downwards) of the same particle. -/
theorem C98_single_steps (sin : α → α) (coef v1 v2 p0 p12 h acc : α) {n B : ℕ} (hB : 0 < B) :
    Moves (Cuda.stepThread n (kickUpBody sin v1 v2 p0 p12 h acc)) n B
      (fun x => (x.1, x.2 + (v1 * sin (x.1 + p0) + v2 * sin (h * (x.1 + p0 - p12)) - acc))) ∧
    Moves (Cuda.stepThread n (kickDownBody sin v1 v2 p0 p12 h acc)) n B
      (fun x => (x.1, x.2 - (v1 * sin (x.1 + p0) + v2 * sin (h * (x.1 + p0 - p12)) - acc))) ∧
    Moves (Cuda.stepThread n (driftUpBody coef)) n B (fun x => (x.1 - coef * x.2, x.2)) ∧
    Moves (Cuda.stepThread n (driftDownBody coef)) n B (fun x => (x.1 + coef * x.2, x.2)) ∧
    Moves (Cuda.bothUpThread sin coef v1 v2 p0 p12 h acc n) n B (fun x =>
      let p := x.1 - coef * x.2
      (p, x.2 + (v1 * sin (p + p0) + v2 * sin (h * (p + p0 - p12)) - acc))) ∧
    Moves (Cuda.bothDownThread sin coef v1 v2 p0 p12 h acc n) n B (fun x =>
      let e := x.2 - (v1 * sin (x.1 + p0) + v2 * sin (h * (x.1 + p0 - p12)) - acc)
      (x.1 + coef * e, e)) := by
  refine ⟨?_, ?_, ?_, ?_, ?_, ?_⟩
  all_goals
    refine moves_of hB (fun t ht => ?_) (fun m₀ t ht => ?_) (fun m₀ t ht => ?_)
    · have hn : ¬ t < n := by omega
      simp only [Cuda.stepThread, Cuda.bothUpThread, Cuda.bothDownThread, if_neg hn]
    · simp only [Cuda.stepThread, Cuda.bothUpThread, Cuda.bothDownThread, if_pos ht]
      simp [kickUpBody, kickDownBody, driftUpBody, driftDownBody, Conf, Cuda.Own2, Cuda.Out2]
    · simp only [Cuda.stepThread, Cuda.bothUpThread, Cuda.bothDownThread, if_pos ht]
      simp [kickUpBody, kickDownBody, driftUpBody, driftDownBody, Prog.run, particle, energyGain]

/-- C98: the combined downward kernel undoes the combined upward kernel with the same coefficients, for every pair of schedules, in exact
arithmetic. -/
theorem C98_down_undoes_up {K : Type} [CommRing K] (sin : K → K) (coef v1 v2 p0 p12 h acc : K) {n B : ℕ} (hB : 0 < B)
    {m₀ m₁ m₂ : Memory K}
    (hu : Cuda.Launched (Cuda.grid (gridSize n B) B (Cuda.bothUpThread sin coef v1 v2 p0 p12 h acc n)) m₀ m₁)
    (hd : Cuda.Launched (Cuda.grid (gridSize n B) B (Cuda.bothDownThread sin coef v1 v2 p0 p12 h acc n)) m₁ m₂) : m₂ = m₀ := by
  obtain ⟨_, _, _, _, U, D⟩ := C98_single_steps sin coef v1 v2 p0 p12 h acc (n := n) hB
  obtain ⟨s, hr, hf, rfl⟩ := hu
  obtain ⟨s', hr', hf', rfl⟩ := hd
  obtain ⟨u1, u2⟩ := (U m₀).result s hr hf
  obtain ⟨d1, d2⟩ := (D s.mem).result s' hr' hf'
  funext x
  by_cases hx : ∀ t : ℕ, t < n → x ≠ .real .dphi t ∧ x ≠ .real .denergy t
  · rw [d2 x hx, u2 x hx]
  · push Not at hx
    obtain ⟨t, ht, hx⟩ := hx
    have e : particle s'.mem t = particle m₀ t := by
      rw [d1 t ht, u1 t ht]
      ext <;> simp
    by_cases h1 : x = .real .dphi t
    · subst h1; exact congrArg Prod.fst e
    · have h2 := hx h1
      subst h2; exact congrArg Prod.snd e

end
end Verif.Props
