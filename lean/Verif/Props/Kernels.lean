import Verif.Model.Kernels

/-!
# C97 — the GPU kernels that are loaded belong to the installed sources

The process may be killed after any command of a compilation; the compiler may be missing or fail.
-/

namespace Verif.Props
open Verif.Kern

/-- every binary on disk was compiled from the source that is installed -/
def Current (d : Disk) : Prop := ∀ b v, d.bin b = some v → v.1 = d.src b.1

/-- all four binaries exist -/
def Complete (d : Disk) : Prop := ∀ b, (d.bin b).isSome

theorem check_iff (d : Disk) : check d = true ↔ Complete d := by
  unfold check commands Complete
  simp only [List.all_cons, List.all_nil, Bool.and_true, Bool.and_eq_true]
  constructor
  · rintro ⟨h1, h2, h3, h4⟩ ⟨s, b⟩
    cases s <;> cases b <;> assumption
  · intro h
    exact ⟨h _, h _, h _, h _⟩

theorem runCommand_src (env : Env) (d : Disk) (b : Bin) : (runCommand env d b).src = d.src := by
  unfold runCommand
  split <;> rfl

theorem foldl_src (env : Env) (l : List Bin) (d : Disk) : (l.foldl (runCommand env) d).src = d.src := by
  induction l generalizing d with
  | nil => rfl
  | cons b l ih => rw [List.foldl_cons, ih, runCommand_src]

theorem current_setBin {d : Disk} (h : Current d) (b : Bin) {v : Option Tag} (hv : ∀ w, v = some w → w.1 = d.src b.1) :
    Current (setBin d b v) := by
  intro c w hc
  unfold setBin at hc ⊢
  dsimp only at hc ⊢
  split at hc
  · next hcb => subst hcb; exact hv w hc
  · exact h c w hc

theorem current_command {d : Disk} (h : Current d) (env : Env) (b : Bin) : Current (runCommand env d b) := by
  unfold runCommand
  split
  · exact current_setBin h b fun w hw => by cases hw; rfl
  · exact h
  · exact current_setBin h b fun w hw => by cases hw

theorem current_foldl (env : Env) (l : List Bin) {d : Disk} (h : Current d) : Current (l.foldl (runCommand env) d) := by
  induction l generalizing d with
  | nil => exact h
  | cons b l ih => exact ih (current_command h env b)

theorem compileKernels_eq (env : Env) (kill : Option Nat) (d : Disk) :
    ∃ l, (compileKernels env kill d).1 = List.foldl (runCommand env) d l := by
  unfold compileKernels
  split
  · exact ⟨[], rfl⟩
  · split
    any_goals exact ⟨[], rfl⟩
    split
    · exact ⟨_, rfl⟩
    · exact ⟨commands, by split <;> rfl⟩

theorem compileIfNeeded_eq (force : Bool) (env : Env) (kill : Option Nat) (d : Disk) :
    ∃ l, (compileIfNeeded force env kill d).1 = List.foldl (runCommand env) d l := by
  unfold compileIfNeeded
  split
  · exact compileKernels_eq env kill d
  · exact ⟨[], rfl⟩

theorem load_disk (single : Bool) (env : Env) (kill : Option Nat) (d : Disk) :
    (load single env kill d).1 = (compileIfNeeded false env kill d).1 := by
  unfold load
  split
  · next h => rw [h]; split <;> rfl
  · next h => rw [h]

/-- C97: when the compilation returns, all four binaries exist; when it raises or is killed no binary is left behind that is neither the
old one nor one of the installed source. -/
theorem C97_compile_ends (force : Bool) (env : Env) (kill : Option Nat) (d : Disk) :
    ((compileIfNeeded force env kill d).2 = .returned → Complete (compileIfNeeded force env kill d).1) ∧
    (compileIfNeeded force env kill d).1.src = d.src ∧
    (∀ b v, (compileIfNeeded force env kill d).1.bin b = some v →
      d.bin b = some v ∨ v = (d.src b.1, env.arch 0)) := by
  refine ⟨?_, ?_, ?_⟩
  · unfold compileIfNeeded
    split
    · unfold compileKernels
      split
      · simp
      · split
        any_goals simp
        split
        · simp
        · split
          · next h => intro _; exact (check_iff _).mp h
          · simp
    · next h =>
      intro _
      rw [← check_iff]
      simp only [Bool.or_eq_true, not_or, Bool.not_eq_true', Bool.not_eq_true] at h
      simpa using h.2
  · obtain ⟨l, hl⟩ := compileIfNeeded_eq force env kill d
    rw [hl, foldl_src]
  · obtain ⟨l, hl⟩ := compileIfNeeded_eq force env kill d
    rw [hl]
    clear hl
    induction l generalizing d with
    | nil => exact fun b v h => Or.inl h
    | cons c l ih =>
      intro b v h
      rw [List.foldl_cons] at h
      rcases ih (runCommand env d c) b v h with h1 | h1
      · unfold runCommand at h1
        split at h1
        · unfold setBin at h1
          dsimp only at h1
          split at h1
          · next hb => cases h1; subst hb; exact Or.inr rfl
          · exact Or.inl h1
        · exact Or.inl h1
        · unfold setBin at h1
          dsimp only at h1
          split at h1
          · cases h1
          · exact Or.inl h1
      · rw [runCommand_src] at h1
        exact Or.inr h1

/-- C97: a forced compilation whose commands all succeed leaves four binaries of the installed sources, built for device 0, whatever was
on disk. -/
theorem C97_compile_success (env : Env) (d : Disk) (hc : env.cupy = true) (hd : env.device = .opens) (hf : env.start = .starts)
    (hn : ∀ b, env.nvcc b = .writes) :
    (compileIfNeeded true env none d).2 = .returned ∧
      ∀ b, (compileIfNeeded true env none d).1.bin b = some (d.src b.1, env.arch 0) := by
  have hbin : ∀ b, ((commands.foldl (runCommand env) d).bin b) = some (d.src b.1, env.arch 0) := by
    rintro ⟨s, p⟩
    cases s <;> cases p <;> simp [commands, runCommand, hn, setBin]
  have hcomp : Complete (commands.foldl (runCommand env) d) := fun b => by rw [hbin]; rfl
  have he : compileIfNeeded true env none d = (commands.foldl (runCommand env) d, .returned) := by
    unfold compileIfNeeded compileKernels
    simp only [Bool.true_or, if_true, hc, hd, hf, Bool.not_true, Bool.false_eq_true, if_false]
    rw [if_pos ((check_iff _).mpr hcomp)]
  rw [he]
  exact ⟨rfl, hbin⟩

theorem current_step {d : Disk} (h : Current d) (op : Op) (hop : ∀ s, op ≠ .edit s) : Current (step d op) := by
  cases op with
  | edit s => exact absurd rfl (hop s)
  | delete b => exact current_setBin h b fun w hw => by cases hw
  | compile force env kill =>
    obtain ⟨l, hl⟩ := compileIfNeeded_eq force env kill d
    show Current (compileIfNeeded force env kill d).1
    rw [hl]
    exact current_foldl env l h
  | load single env kill =>
    obtain ⟨l, hl⟩ := compileIfNeeded_eq false env kill d
    show Current (load single env kill d).1
    rw [load_disk, hl]
    exact current_foldl env l h

theorem current_run {d : Disk} (h : Current d) (ops : List Op) (hops : ∀ op ∈ ops, ∀ s, op ≠ .edit s) : Current (runOps d ops) := by
  induction ops generalizing d with
  | nil => exact h
  | cons op ops ih =>
    exact ih (current_step h op (hops op (by simp))) fun o ho => hops o (by simp [ho])

/-- C97, sources that are not changed after the installation: after every history of compilations (forced or not, failing, killed after
any command), of loading and of deleted binaries, the kernels that get loaded are compiled from the installed sources, for both
precisions. -/
theorem C97_loaded_partial (ops : List Op) (hops : ∀ op ∈ ops, ∀ s, op ≠ .edit s) (single : Bool) (env : Env) (kill : Option Nat)
    {a b : Tag} (h : (load single env kill (runOps fresh ops)).2.2 = some (a, b)) :
    a.1 = (runOps fresh ops).src .kickDrift ∧ b.1 = (runOps fresh ops).src .reconstruct := by
  have hcur : Current (runOps fresh ops) := current_run (fun b v h => by cases h) ops hops
  have hsrc := (C97_compile_ends false env kill (runOps fresh ops)).2.1
  obtain ⟨l, hl⟩ := compileIfNeeded_eq false env kill (runOps fresh ops)
  have hcur' : Current (compileIfNeeded false env kill (runOps fresh ops)).1 := by rw [hl]; exact current_foldl env l hcur
  unfold load at h
  split at h
  · next d hd =>
    rw [hd] at hcur' hsrc
    dsimp only at hcur' hsrc
    split at h
    · next a' b' ha hb =>
      dsimp only at h
      cases h
      rw [← hsrc]
      exact ⟨hcur' _ _ ha, hcur' _ _ hb⟩
    · cases h
  · cases h

/-- C97: loading returns kernels or ends in an exception of the compilation or the death of the process, never in a missing file; and once it
has returned, it returns the same kernels without calling the compiler as long as no binary disappears. -/
theorem C97_load_ends (single : Bool) (env : Env) (kill : Option Nat) (d : Disk) :
    ((load single env kill d).2.1 = .returned ↔ (load single env kill d).2.2.isSome) ∧
    ((load single env kill d).2.1 = .returned → ∀ env' kill', load single env' kill' (load single env kill d).1 = load single env kill d) := by
  have hc := (C97_compile_ends false env kill d).1
  cases hcase : compileIfNeeded false env kill d with
  | mk d' e =>
    rw [hcase] at hc
    cases e with
    | returned =>
      have hcomp : Complete d' := hc rfl
      obtain ⟨a, ha⟩ := Option.isSome_iff_exists.mp (hcomp (.kickDrift, single))
      obtain ⟨b, hb⟩ := Option.isSome_iff_exists.mp (hcomp (.reconstruct, single))
      have he : load single env kill d = (d', .returned, some (a, b)) := by
        unfold load
        rw [hcase]
        simp only [ha, hb]
      rw [he]
      refine ⟨by simp, fun _ env' kill' => ?_⟩
      have h2 : compileIfNeeded false env' kill' d' = (d', .returned) := by
        unfold compileIfNeeded
        rw [(check_iff d').mpr hcomp]
        rfl
      unfold load
      simp only [h2, ha, hb]
    | compilationException =>
      have he : load single env kill d = (d', .compilationException, none) := by
        unfold load
        rw [hcase]
      rw [he]
      simp
    | otherException =>
      have he : load single env kill d = (d', .otherException, none) := by
        unfold load
        rw [hcase]
      rw [he]
      simp
    | killed =>
      have he : load single env kill d = (d', .killed, none) := by
        unfold load
        rw [hcase]
      rw [he]
      simp

/-- a working system; devices 0 and 1 differ in architecture -/
def goodEnv : Env := ⟨true, .opens, fun i => 70 + i, .starts, fun _ => .writes⟩
/-- the compiler rejects the sources and leaves its old output -/
def badEnv : Env := { goodEnv with nvcc := fun _ => .fails }

/-- the hypotheses: a fresh installation, a compilation killed after two commands, then a load in single precision -/
example : (load true goodEnv none (runOps fresh [.compile false goodEnv (some 2)])).2 = (.returned, some ((0, 70), (0, 70))) := by decide

/-- C97 is violated (for a compiler that leaves its old output when it fails): the sources are changed, the forced compilation fails because the compiler rejects them — and reports success, since
the return codes are not looked at and the old binaries are there. The kernels loaded afterwards are those of the old sources. -/
theorem C97_violated_failed_compiler :
    let d := runOps fresh [.compile false goodEnv none, .edit .kickDrift]
    (compileIfNeeded true badEnv none d).2 = .returned ∧
    (load false badEnv none (compileIfNeeded true badEnv none d).1).2 = (.returned, some ((0, 70), (0, 70))) ∧ d.src .kickDrift = 1 := by
  decide

/-- C97 is violated: a changed source is not noticed without `force`; nothing is compiled and the old kernels are loaded. -/
theorem C97_violated_stale :
    let d := runOps fresh [.compile false goodEnv none, .edit .reconstruct]
    (load false goodEnv none d).2 = (.returned, some ((0, 70), (0, 70))) ∧ d.src .reconstruct = 1 := by
  decide

/-- C97 is violated: both sources are changed and the forced compilation is killed after two commands. All files exist, so the next start
loads the new kernels for tracking together with the old ones for the reconstruction. -/
theorem C97_violated_mixture :
    let d := runOps fresh [.compile false goodEnv none, .edit .reconstruct, .edit .kickDrift, .compile true goodEnv (some 2)]
    (load false goodEnv none d).2 = (.returned, some ((1, 70), (0, 70))) := by
  decide

/-- C97 is violated: the kernels are always compiled for device 0, whichever device is going to be used: on a machine whose device 1 has
another architecture, the binaries loaded on device 1 are not built for it, even right after a successful forced compilation. -/
theorem C97_violated_other_device (d : Disk) (single : Bool) :
    ∃ a b, (load single goodEnv none (compileIfNeeded true goodEnv none d).1).2 = (.returned, some (a, b)) ∧
      a.2 ≠ goodEnv.arch 1 ∧ b.2 ≠ goodEnv.arch 1 := by
  obtain ⟨_, hb⟩ := C97_compile_success goodEnv d rfl rfl rfl fun _ => rfl
  generalize (compileIfNeeded true goodEnv none d).1 = d' at hb
  have hc : check d' = true := (check_iff d').mpr fun b => by rw [hb]; rfl
  refine ⟨(d.src .kickDrift, 70), (d.src .reconstruct, 70), ?_, by simp [goodEnv], by simp [goodEnv]⟩
  unfold load compileIfNeeded
  rw [hc]
  simp [hb, goodEnv]

/-- C97 is violated: an `nvcc` that cannot be executed ends in another exception than `CudaCompilationException`. -/
theorem C97_violated_exception (d : Disk) (kill : Option Nat) :
    (compileIfNeeded true { goodEnv with start := .other } kill d).2 = .otherException := rfl

end Verif.Props
