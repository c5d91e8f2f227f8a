import Verif.Spec.Config
import Mathlib.Tactic.Cases

/-!
# Configuration: invariants of the calls
-/

namespace Verif.Config
open Verif.Spec
variable {V : Type}

/-- `a` keeps `P`, whether it raises or not -/
def Keeps (P : State V → Prop) (a : Act V) : Prop := ∀ s, P s → P (a s).1

theorem keeps_then {P : State V → Prop} {a b : Act V} (ha : Keeps P a) (hb : Keeps P b) : Keeps P (a.then b) := by
  intro s hs
  have := ha s hs
  unfold Act.then
  rcases h : a s with ⟨s', _ | e⟩
  · rw [h] at this; exact hb s' this
  · rw [h] at this; exact this

theorem keeps_failIf {P : State V → Prop} (c : State V → Bool) (e : Err) : Keeps P (failIf c e) := fun _ h => h

theorem keeps_act {P : State V → Prop} {f : State V → State V} (h : ∀ s, P s → P (f s)) : Keeps P (act f) := h

/-- the part of the state that the device code does not touch -/
def Frame (s t : State V) : Prop :=
  t.prec = s.prec ∧ t.gpuEnabled = s.gpuEnabled ∧ t.active = s.active ∧ t.globals = s.globals

theorem keeps_loadModules {P : State V → Prop} (h : ∀ (s : State V) f, P s → P { s with dev := s.dev.map f }) (env : Env)
    (p : Prec) : Keeps P (loadModules env p) :=
  keeps_then (keeps_failIf _ _) <| keeps_then (keeps_act fun s => h s _) <| keeps_then (keeps_failIf _ _) <|
    keeps_act fun s => h s _

theorem keeps_initDev {P : State V → Prop} (h0 : ∀ (s : State V), P s → P { s with dev := some {} })
    (h : ∀ (s : State V) f, P s → P { s with dev := s.dev.map f }) (env : Env) (p : Prec) (id : Int) :
    Keeps P (initDev env p id) := by
  intro s hs
  unfold initDev
  split
  · exact hs
  · exact keeps_then (keeps_act h0) (keeps_then (keeps_failIf _ _) <| keeps_then (keeps_act fun s => h s _) <|
      keeps_then (keeps_failIf _ _) <| keeps_then (keeps_act fun s => h s _) <| keeps_then (keeps_failIf _ _) <|
      keeps_loadModules h env p) s hs

theorem keeps_frame_init (s₀ : State V) (env : Env) (p : Prec) (id : Int) : Keeps (Frame s₀) (initDev env p id) :=
  keeps_initDev (fun _ h => h) (fun _ _ h => h) env p id

theorem keeps_frame_refreshKd (s₀ : State V) : Keeps (Frame s₀) refreshKd :=
  keeps_then (keeps_failIf _ _) (keeps_act fun _ h => h)

theorem keeps_frame_refreshRec (s₀ : State V) : Keeps (Frame s₀) refreshRec :=
  keeps_then (keeps_failIf _ _) (keeps_act fun _ h => h)

theorem keeps_frame_importKd (s₀ : State V) (env : Env) : Keeps (Frame s₀) (importKd env) := by
  intro s hs
  unfold importKd
  split
  · exact hs
  · exact keeps_then (keeps_failIf _ _) (keeps_then (keeps_frame_init s₀ env _ _) <|
      keeps_then (keeps_failIf _ _) (keeps_frame_refreshKd s₀)) s hs

theorem keeps_frame_importRec (s₀ : State V) (env : Env) : Keeps (Frame s₀) (importRec env) := by
  intro s hs
  unfold importRec
  split
  · exact hs
  · exact keeps_then (keeps_failIf _ _) (keeps_then (keeps_frame_init s₀ env _ _) <|
      keeps_then (keeps_failIf _ _) (keeps_frame_refreshRec s₀)) s hs

theorem keeps_frame_loadAndRefresh (s₀ : State V) (env : Env) (p : Prec) : Keeps (Frame s₀) (loadAndRefresh env p) :=
  keeps_then (keeps_failIf _ _) <| keeps_then (keeps_frame_init s₀ env _ _) <|
    keeps_then (keeps_loadModules (fun _ _ h => h) env p) <| keeps_then (keeps_frame_importKd s₀ env) <|
    keeps_then (keeps_frame_importRec s₀ env) <| keeps_then (keeps_frame_refreshKd s₀) (keeps_frame_refreshRec s₀)

/-- what happens before the routines are exchanged in `use_gpu` -/
def prepareGpu (env : Env) (p : Prec) (id : Int) : Act V :=
  (failIf (fun _ => env .cupy) .importError).then <| (initDev env p id).then <| (importKd env).then (importRec env)

theorem then_assoc (a b c : Act V) : (a.then b).then c = a.then (b.then c) := by
  funext s
  unfold Act.then
  rcases a s with ⟨s', _ | e⟩ <;> rfl

theorem useGpu_eq (gpu : Dict V) (env : Env) (id : Int) (s : State V) (hid : ¬ id < 0) :
    useGpu gpu env id s = (prepareGpu env s.prec id).then
      ((updateActiveDict gpu).then (act fun s => { s with gpuEnabled := true })) s := by
  unfold useGpu prepareGpu
  rw [if_neg hid]
  simp only [then_assoc]

theorem keeps_frame_prepare (s₀ : State V) (env : Env) (p : Prec) (id : Int) : Keeps (Frame s₀) (prepareGpu env p id) :=
  keeps_then (keeps_failIf _ _) <| keeps_then (keeps_frame_init s₀ env p id) <|
    keeps_then (keeps_frame_importKd s₀ env) (keeps_frame_importRec s₀ env)

/-- `use_gpu` that raises leaves the selection as it was -/
theorem useGpu_raised {gpu : Dict V} {env : Env} {id : Int} {s : State V} {e : Err}
    (h : (useGpu gpu env id s).2 = some e) : Frame s (useGpu gpu env id s).1 := by
  by_cases hid : id < 0
  · unfold useGpu at h; rw [if_pos hid] at h; cases h
  · rw [useGpu_eq _ _ _ _ hid] at h ⊢
    have hf := keeps_frame_prepare s env s.prec id s ⟨rfl, rfl, rfl, rfl⟩
    unfold Act.then at h ⊢
    rcases hp : prepareGpu env s.prec id s with ⟨s', _ | e'⟩
    · rw [hp] at h; cases h
    · rw [hp] at hf; exact hf

/-- `use_gpu` that succeeds -/
theorem useGpu_done {gpu : Dict V} {env : Env} {id : Int} {s : State V} (hid : ¬ id < 0)
    (h : (useGpu gpu env id s).2 = none) :
    (useGpu gpu env id s).1.gpuEnabled = true ∧ (useGpu gpu env id s).1.prec = s.prec ∧
    (useGpu gpu env id s).1.active = gpu ∧
    (useGpu gpu env id s).1.globals = (fun n => match gpu n with
      | some v => some v
      | none => if (s.active n).isSome then none else s.globals n) := by
  rw [useGpu_eq _ _ _ _ hid] at h ⊢
  have hf := keeps_frame_prepare s env s.prec id s ⟨rfl, rfl, rfl, rfl⟩
  unfold Act.then at h ⊢
  rcases hp : prepareGpu env s.prec id s with ⟨s', _ | e'⟩
  · rw [hp] at hf
    obtain ⟨h1, h2, h3, h4⟩ := hf
    simp only at h1 h2 h3 h4
    refine ⟨rfl, h1, rfl, ?_⟩
    simp only [updateActiveDict, act]
    rw [h3, h4]
    rfl
  · rw [hp] at h; cases h

/-! ## Names -/

/-- the names of the module are the routines of the selected device over those of the module itself -/
structure Names (cpu gpu base : Dict V) (s : State V) : Prop where
  active : s.active = if s.gpuEnabled then gpu else cpu
  globals : s.globals = overlay base s.active

theorem install_overlay {base old new : Dict V} (hb : ∀ n, (base n).isSome → old n = none) {g : Dict V}
    (hg : g = overlay base old) :
    (fun n => match new n with
      | some v => some v
      | none => if (old n).isSome then none else g n) = overlay base new := by
  funext n
  subst hg
  unfold overlay
  cases hn : new n with
  | some v => rfl
  | none =>
    cases ho : old n with
    | none => simp
    | some w =>
      cases hbn : base n with
      | none => simp
      | some v =>
        have := hb n (by rw [hbn]; rfl)
        rw [ho] at this; cases this

theorem frame_names {cpu gpu base : Dict V} {s t : State V} (hf : Frame s t) (h : Names cpu gpu base s) :
    Names cpu gpu base t := by
  obtain ⟨_, h2, h3, h4⟩ := hf
  exact ⟨by rw [h3, h2]; exact h.active, by rw [h4, h3]; exact h.globals⟩

theorem names_call {cpu gpu base : Dict V} (hc : ∀ n, (base n).isSome → cpu n = none)
    (hg : ∀ n, (base n).isSome → gpu n = none) (env : Env) (c : Call) {s : State V} (h : Names cpu gpu base s) :
    Names cpu gpu base (call cpu gpu env c s).1 := by
  have hold : ∀ n, (base n).isSome → s.active n = none := by
    intro n hn
    rw [h.active]
    split
    · exact hg n hn
    · exact hc n hn
  cases c with
  | cpu => exact ⟨rfl, install_overlay hold h.globals⟩
  | gpu id =>
    by_cases hid : id < 0
    · simp only [call, useGpu, if_pos hid]; exact h
    · cases he : (useGpu gpu env id s).2 with
      | some e => exact frame_names (useGpu_raised he) h
      | none =>
        obtain ⟨h1, h2, h3, h4⟩ := useGpu_done hid he
        refine ⟨?_, ?_⟩
        · show (useGpu gpu env id s).1.active = if (useGpu gpu env id s).1.gpuEnabled then gpu else cpu
          rw [h3, h1]; rfl
        · simp only [call]; rw [h4, h3]; exact install_overlay hold h.globals
  | precision p =>
    have hs : Names cpu gpu base { s with prec := p } := ⟨h.active, h.globals⟩
    simp only [call, setPrec, Act.then, act]
    split
    · exact frame_names (keeps_frame_loadAndRefresh _ env p _ ⟨rfl, rfl, rfl, rfl⟩) hs
    · exact hs

/-! ## Histories -/

theorem prec_call (cpu gpu : Dict V) (env : Env) (c : Call) (s : State V) :
    (call cpu gpu env c s).1.prec = match c with | .precision p => p | _ => s.prec := by
  cases c with
  | cpu => rfl
  | gpu id =>
    by_cases hid : id < 0
    · simp only [call, useGpu, if_pos hid]
    · cases he : (useGpu gpu env id s).2 with
      | some e => exact (useGpu_raised he).1
      | none => exact (useGpu_done hid he).2.1
  | precision p =>
    simp only [call, setPrec, Act.then, act]
    split
    · exact (keeps_frame_loadAndRefresh { s with prec := p } env p { s with prec := p } ⟨rfl, rfl, rfl, rfl⟩).1
    · rfl

theorem enabled_call (cpu gpu : Dict V) (env : Env) (c : Call) (s : State V) :
    (call cpu gpu env c s).1.gpuEnabled = gpuSelected [(c, (call cpu gpu env c s).2)] s.gpuEnabled := by
  cases c with
  | cpu => rfl
  | gpu id =>
    by_cases hid : id < 0
    · simp only [call, useGpu, if_pos hid, gpuSelected]
    · simp only [call]
      cases he : (useGpu gpu env id s).2 with
      | some e => exact (useGpu_raised he).2.1
      | none => rw [(useGpu_done hid he).1]; simp [gpuSelected, hid]
  | precision p =>
    simp only [call, setPrec, Act.then, act, gpuSelected]
    split
    · exact (keeps_frame_loadAndRefresh { s with prec := p } env p { s with prec := p } ⟨rfl, rfl, rfl, rfl⟩).2.1
    · rfl

theorem gpuSelected_cons (e : Call × Option Err) (h : List (Call × Option Err)) (on : Bool) :
    gpuSelected (e :: h) on = gpuSelected h (gpuSelected [e] on) := by
  rcases e with ⟨c, r⟩
  cases c <;> cases r <;> rfl

theorem precSelected_cons (c : Call) (h : List Call) (p : Prec) :
    precSelected (c :: h) p = precSelected h (match c with | .precision q => q | _ => p) := by
  cases c <;> rfl

/-- a property kept by every call is kept by every history -/
theorem history_keeps {cpu gpu : Dict V} {P : State V → Prop} (hP : ∀ env c s, P s → P (call cpu gpu env c s).1)
    (h : List (Call × Env)) {s : State V} (hs : P s) : P (history cpu gpu h s).1 := by
  induction h generalizing s with
  | nil => exact hs
  | cons e h ih => exact ih (hP _ _ _ hs)

theorem history_enabled (cpu gpu : Dict V) (h : List (Call × Env)) (s : State V) :
    (history cpu gpu h s).1.gpuEnabled = gpuSelected ((h.map Prod.fst).zip (history cpu gpu h s).2) s.gpuEnabled := by
  induction h generalizing s with
  | nil => rfl
  | cons e h ih =>
    simp only [history, List.map_cons, List.zip_cons_cons]
    rw [gpuSelected_cons, ih, ← enabled_call]

theorem history_prec (cpu gpu : Dict V) (h : List (Call × Env)) (s : State V) :
    (history cpu gpu h s).1.prec = precSelected (h.map Prod.fst) s.prec := by
  induction h generalizing s with
  | nil => rfl
  | cons e h ih =>
    simp only [history, List.map_cons]
    rw [precSelected_cons, ih, prec_call]

/-! ## Kernels -/

/-- the device is open and its modules and the bound kernels have precision `p` -/
def Loaded (s : State V) (p : Prec) : Prop :=
  (∃ id, s.dev = some ⟨some id, true, some p, some p⟩) ∧ s.kdKernels = some p ∧ s.recKernels = some p

/-- no trace of a GPU -/
def Untouched (s : State V) : Prop := s.dev = none ∧ s.kdKernels = none ∧ s.recKernels = none

theorem initDev_some {env : Env} {p : Prec} {id : Int} {s : State V} (h : s.dev.isSome = true) :
    initDev env p id s = (s, none) := by
  unfold initDev; rw [if_pos h]

theorem useGpu_untouched {gpu : Dict V} {env : Env} {id : Int} {s : State V} (hu : Untouched s) (hid : ¬ id < 0)
    (h : (useGpu gpu env id s).2 = none) : Loaded (useGpu gpu env id s).1 s.prec := by
  rcases s with ⟨prec, en, ac, gl, dev, kd, rc⟩
  obtain ⟨h1, h2, h3⟩ := hu
  simp only at h1 h2 h3
  subst h1 h2 h3
  unfold useGpu at h ⊢
  rw [if_neg hid] at h ⊢
  by_cases e1 : env .cupy = true <;> by_cases e2 : env .device = true <;> by_cases e3 : env .compile = true <;>
    by_cases e4 : env .loadKd = true <;> by_cases e5 : env .loadRec = true <;>
    simp_all [Act.then, failIf, act, initDev, onDev, loadModules, importKd, importRec, getDev, refreshKd, refreshRec,
      updateActiveDict, Loaded]

theorem useGpu_loaded {gpu : Dict V} {env : Env} {id : Int} {s : State V} {p : Prec} (hl : Loaded s p) :
    Loaded (useGpu gpu env id s).1 p := by
  rcases s with ⟨prec, en, ac, gl, dev, kd, rc⟩
  obtain ⟨⟨i, h1⟩, h2, h3⟩ := hl
  simp only at h1 h2 h3
  subst h1 h2 h3
  unfold useGpu
  split
  · exact ⟨⟨i, rfl⟩, rfl, rfl⟩
  · by_cases e1 : env .cupy = true <;>
    simp_all [Act.then, failIf, act, initDev, importKd, importRec, updateActiveDict, Loaded]

theorem setPrec_enabled {env : Env} {p q : Prec} {s : State V} (hl : Loaded s q) (he : s.gpuEnabled = true)
    (h : (setPrec env p s).2 = none) : Loaded (setPrec env p s).1 p := by
  rcases s with ⟨prec, en, ac, gl, dev, kd, rc⟩
  obtain ⟨⟨i, h1⟩, h2, h3⟩ := hl
  simp only at h1 h2 h3 he
  subst h1 h2 h3 he
  by_cases e3 : env .compile = true <;>
    by_cases e4 : env .loadKd = true <;> by_cases e5 : env .loadRec = true <;>
    simp_all [Act.then, failIf, act, initDev, onDev, loadModules, importKd, importRec, getDev, refreshKd, refreshRec,
      setPrec, loadAndRefresh, Loaded]

end Verif.Config

namespace Verif.Config
open Verif.Spec
variable {V : Type}

theorem useCpu_loaded {cpu : Dict V} {s : State V} {p : Prec} (hl : Loaded s p) : Loaded (useCpu cpu s).1 p := hl

theorem setPrec_disabled {env : Env} {p : Prec} {s : State V} (he : s.gpuEnabled = false) :
    setPrec env p s = ({ s with prec := p }, none) := by
  simp only [setPrec, Act.then, act, he]
  rfl

/-- the kernels along a careful history without exceptions -/
theorem careful_history {cpu gpu : Dict V} (h : List (Call × Env)) (s : State V) {used : Bool}
    (hs : if used then Loaded s s.prec else Untouched s ∧ s.gpuEnabled = false)
    (hc : Careful used s.gpuEnabled s.prec (h.map Prod.fst))
    (hn : ∀ r ∈ (history cpu gpu h s).2, r = none) :
    (history cpu gpu h s).1.gpuEnabled = true → Loaded (history cpu gpu h s).1 (history cpu gpu h s).1.prec := by
  induction h generalizing s used with
  | nil =>
    intro he
    cases used with
    | false => rw [show (history cpu gpu [] s).1 = s from rfl] at he; rw [hs.2] at he; cases he
    | true => exact hs
  | cons e h ih =>
    rcases e with ⟨c, env⟩
    simp only [history, List.map_cons, List.mem_cons, forall_eq_or_imp] at hc hn ⊢
    obtain ⟨hn0, hn⟩ := hn
    cases c with
    | cpu =>
      refine ih (used := used) _ ?_ hc hn
      cases used with
      | false => exact ⟨hs.1, rfl⟩
      | true => exact useCpu_loaded hs
    | gpu id =>
      simp only [Careful] at hc
      by_cases hid : id < 0
      · rw [if_pos hid] at hc
        have hu : call cpu gpu env (.gpu id) s = (s, none) := by simp only [call, useGpu, if_pos hid]
        rw [hu] at hn ⊢
        exact ih (used := used) s hs hc hn
      · rw [if_neg hid] at hc
        obtain ⟨h1, h2, _, _⟩ := useGpu_done hid hn0
        refine ih (used := true) _ ?_ (by simpa only [call, h1, h2] using hc) hn
        simp only [call, h2, if_true]
        cases used with
        | false => exact useGpu_untouched hs.1 hid hn0
        | true => exact useGpu_loaded hs
    | precision q =>
      obtain ⟨hq, hc⟩ := hc
      have hp := prec_call cpu gpu env (.precision q) s
      have he := enabled_call cpu gpu env (.precision q) s
      simp only [gpuSelected] at hp he
      refine ih (used := used) _ ?_ (by rw [he, hp]; exact hc) hn
      cases used with
      | false =>
        refine ⟨?_, by rw [he]; exact hs.2⟩
        simp only [call, setPrec_disabled hs.2]
        exact hs.1
      | true =>
        simp only [if_true] at hs ⊢
        rw [hp]
        cases hg : s.gpuEnabled with
        | true => exact setPrec_enabled hs hg hn0
        | false =>
          rw [hg] at hq
          have : q = s.prec := by simpa using hq
          subst this
          simp only [call, setPrec_disabled hg]
          exact hs

theorem initDev_done {env : Env} {p : Prec} {id : Int} {s : State V} (h : (initDev env p id s).2 = none) :
    (initDev env p id s).1.dev.isSome = true := by
  unfold initDev at h ⊢
  split
  · assumption
  · rename_i hd
    rw [if_neg hd] at h
    by_cases e1 : env .cupy = true <;> by_cases e2 : env .device = true <;> by_cases e3 : env .compile = true <;>
      by_cases e4 : env .loadKd = true <;> by_cases e5 : env .loadRec = true <;>
      simp_all [Act.then, failIf, act, onDev, loadModules]

theorem then_done {a b : Act V} {s : State V} (h : (a.then b s).2 = none) :
    (a s).2 = none ∧ (b (a s).1).2 = none ∧ a.then b s = b (a s).1 := by
  unfold Act.then at h ⊢
  rcases ha : a s with ⟨s', _ | e⟩
  · rw [ha] at h; exact ⟨rfl, h, rfl⟩
  · rw [ha] at h; cases h

/-- the instance is there -/
theorem keeps_dev_init (d : Dev) (env : Env) (p : Prec) (id : Int) :
    Keeps (fun s : State V => s.dev = some d) (initDev env p id) := by
  intro s hs
  rw [initDev_some (by rw [hs]; rfl)]
  exact hs

theorem keeps_dev_refreshKd (d : Dev) : Keeps (fun s : State V => s.dev = some d) refreshKd :=
  keeps_then (keeps_failIf _ _) (keeps_act fun _ h => h)

theorem keeps_dev_refreshRec (d : Dev) : Keeps (fun s : State V => s.dev = some d) refreshRec :=
  keeps_then (keeps_failIf _ _) (keeps_act fun _ h => h)

theorem keeps_dev_importKd (d : Dev) (env : Env) : Keeps (fun s : State V => s.dev = some d) (importKd env) := by
  intro s hs
  unfold importKd
  split
  · exact hs
  · exact keeps_then (keeps_failIf _ _) (keeps_then (keeps_dev_init d env _ _) <|
      keeps_then (keeps_failIf _ _) (keeps_dev_refreshKd d)) s hs

theorem keeps_dev_importRec (d : Dev) (env : Env) : Keeps (fun s : State V => s.dev = some d) (importRec env) := by
  intro s hs
  unfold importRec
  split
  · exact hs
  · exact keeps_then (keeps_failIf _ _) (keeps_then (keeps_dev_init d env _ _) <|
      keeps_then (keeps_failIf _ _) (keeps_dev_refreshRec d)) s hs

/-- setting the precision while the GPU is in use, in any state -/
theorem loadAndRefresh_done {env : Env} {p : Prec} {s : State V} (h : (loadAndRefresh env p s).2 = none) :
    KernelsAre (loadAndRefresh env p s).1 p := by
  unfold loadAndRefresh at h ⊢
  obtain ⟨_, h, e⟩ := then_done h
  rw [e]; clear e
  obtain ⟨h1, h, e⟩ := then_done h
  rw [e]; clear e
  have hd := initDev_done h1
  generalize hs1 : (getDev env _).1 = s1 at h ⊢
  rw [show (initDev env Prec.double 0 _).1 = s1 from hs1] at hd
  obtain ⟨h2, h, e⟩ := then_done h
  rw [e]; clear e
  obtain ⟨d, hd⟩ := Option.isSome_iff_exists.1 hd
  have hl : (loadModules env p s1).1.dev = some { d with kdMod := some p, recMod := some p } := by
    by_cases e4 : env .loadKd = true <;> by_cases e5 : env .loadRec = true <;>
      simp_all [Act.then, failIf, act, onDev, loadModules]
  generalize (loadModules env p s1).1 = s2 at h hl ⊢
  obtain ⟨_, h, e⟩ := then_done h
  rw [e]; clear e
  have hl := keeps_dev_importKd _ env _ hl
  generalize (importKd env s2).1 = s3 at h hl ⊢
  obtain ⟨_, h, e⟩ := then_done h
  rw [e]; clear e
  have hl := keeps_dev_importRec _ env _ hl
  generalize (importRec env s3).1 = s4 at h hl ⊢
  rcases s4 with ⟨a1, a2, a3, a4, a5, a6, a7⟩
  simp only at hl
  subst hl
  exact ⟨rfl, rfl⟩

/-! ## A device that could not be opened -/

/-- the instance lacks a module which the CUDA routines have not bound yet; the GPU is not in use -/
def Broken (s : State V) : Prop :=
  s.gpuEnabled = false ∧ ∃ d, s.dev = some d ∧
    ((d.kdMod = none ∧ s.kdKernels = none) ∨ (d.recMod = none ∧ s.recKernels = none))

/-- code that cannot touch more than the kernels of the module it belongs to -/
theorem importKd_dev {env : Env} {s : State V} {d : Dev} (hd : s.dev = some d) :
    (importKd env s).1 = s ∨ (importKd env s).1 = { s with kdKernels := d.kdMod } ∧ d.kdMod.isSome := by
  unfold importKd
  split
  · exact Or.inl rfl
  · rcases s with ⟨a1, a2, a3, a4, a5, a6, a7⟩
    simp only at hd
    subst hd
    by_cases e1 : env .cupy = true <;> by_cases e2 : d.blockSize = true <;> cases e3 : d.kdMod <;>
      simp_all [Act.then, failIf, getDev, initDev, refreshKd, act]

theorem importRec_dev {env : Env} {s : State V} {d : Dev} (hd : s.dev = some d) :
    (importRec env s).1 = s ∨ (importRec env s).1 = { s with recKernels := d.recMod } ∧ d.recMod.isSome := by
  unfold importRec
  split
  · exact Or.inl rfl
  · rcases s with ⟨a1, a2, a3, a4, a5, a6, a7⟩
    simp only at hd
    subst hd
    by_cases e1 : env .cupy = true <;> by_cases e2 : d.blockSize = true <;> cases e3 : d.recMod <;>
      simp_all [Act.then, failIf, getDev, initDev, refreshRec, act]

theorem importKd_none {env : Env} {s : State V} {d : Dev} (hd : s.dev = some d) (h1 : d.kdMod = none)
    (h2 : s.kdKernels = none) : (importKd env s).2 ≠ none := by
  rcases s with ⟨a1, a2, a3, a4, a5, a6, a7⟩
  simp only at hd h2
  subst hd h2
  by_cases e1 : env .cupy = true <;> by_cases e2 : d.blockSize = true <;>
      simp_all [importKd, Act.then, failIf, getDev, initDev, refreshKd]

theorem importRec_none {env : Env} {s : State V} {d : Dev} (hd : s.dev = some d) (h1 : d.recMod = none)
    (h2 : s.recKernels = none) : (importRec env s).2 ≠ none := by
  rcases s with ⟨a1, a2, a3, a4, a5, a6, a7⟩
  simp only at hd h2
  subst hd h2
  by_cases e1 : env .cupy = true <;> by_cases e2 : d.blockSize = true <;>
      simp_all [importRec, Act.then, failIf, getDev, initDev, refreshRec]

theorem broken_importKd (env : Env) : Keeps (Broken (V := V)) (importKd env) := by
  intro s ⟨h1, d, h2, h3⟩
  rcases importKd_dev (env := env) h2 with h | ⟨h, hk⟩
  · rw [h]; exact ⟨h1, d, h2, h3⟩
  · rw [h]
    refine ⟨h1, d, h2, h3.imp (fun h => ?_) id⟩
    rw [h.1] at hk; cases hk

theorem broken_importRec (env : Env) : Keeps (Broken (V := V)) (importRec env) := by
  intro s ⟨h1, d, h2, h3⟩
  rcases importRec_dev (env := env) h2 with h | ⟨h, hk⟩
  · rw [h]; exact ⟨h1, d, h2, h3⟩
  · rw [h]
    refine ⟨h1, d, h2, h3.imp id (fun h => ?_)⟩
    rw [h.1] at hk; cases hk

theorem broken_useGpu {gpu : Dict V} {env : Env} {id : Int} {s : State V} (hs : Broken s) :
    Broken (useGpu gpu env id s).1 := by
  by_cases hid : id < 0
  · simp only [useGpu, if_pos hid]; exact hs
  · have hp : ∀ s : State V, Broken s → (prepareGpu env s.prec id s).2 ≠ none ∧ Broken (prepareGpu env s.prec id s).1 := by
      intro s hs
      obtain ⟨h1, d, h2, h3⟩ := hs
      have hi : initDev env s.prec id s = (s, none) := initDev_some (by rw [h2]; rfl)
      constructor
      · intro hn
        unfold prepareGpu at hn
        obtain ⟨_, hn, _⟩ := then_done hn
        obtain ⟨_, hn, _⟩ := then_done hn
        simp only [failIf, hi] at hn
        obtain ⟨hn1, hn, _⟩ := then_done hn
        rcases h3 with h3 | h3
        · exact importKd_none h2 h3.1 h3.2 hn1
        · rcases importKd_dev (env := env) h2 with h | ⟨h, hk⟩
          · rw [h] at hn; exact importRec_none h2 h3.1 h3.2 hn
          · rw [h] at hn; exact importRec_none (s := { s with kdKernels := d.kdMod }) h2 h3.1 h3.2 hn
      · have hb : Keeps (Broken (V := V)) (initDev env s.prec id) := by
          intro t ⟨g1, d', g2, g3⟩
          rw [initDev_some (by rw [g2]; rfl)]
          exact ⟨g1, d', g2, g3⟩
        exact keeps_then (keeps_failIf _ _) (keeps_then hb <| keeps_then (broken_importKd env) (broken_importRec env)) s
          ⟨h1, d, h2, h3⟩
    obtain ⟨hp1, hp2⟩ := hp s hs
    rw [useGpu_eq _ _ _ _ hid]
    unfold Act.then
    rcases he : prepareGpu env s.prec id s with ⟨s', _ | e⟩
    · rw [he] at hp1; exact absurd rfl hp1
    · rw [he] at hp2; exact hp2

theorem broken_call (cpu gpu : Dict V) (env : Env) (c : Call) (s : State V) (hs : Broken s) :
    Broken (call cpu gpu env c s).1 := by
  cases c with
  | cpu => exact ⟨rfl, hs.2⟩
  | gpu id => exact broken_useGpu hs
  | precision p => simp only [call, setPrec_disabled hs.1]; exact hs

/-- the first `use_gpu` raises something else than the `ImportError` of `import cupy` -/
theorem broken_first {gpu : Dict V} {env : Env} {id : Int} {s : State V} {e : Err} (hu : Untouched s)
    (he : s.gpuEnabled = false) (h : (useGpu gpu env id s).2 = some e) (hi : e ≠ .importError) :
    Broken (useGpu gpu env id s).1 := by
  by_cases hid : id < 0
  · simp only [useGpu, if_pos hid] at h; cases h
  rcases s with ⟨prec, en, ac, gl, dev, kd, rc⟩
  obtain ⟨h1, h2, h3⟩ := hu
  simp only at h1 h2 h3 he
  subst h1 h2 h3 he
  unfold useGpu at h ⊢
  rw [if_neg hid] at h ⊢
  by_cases e1 : env .cupy = true <;> by_cases e2 : env .device = true <;> by_cases e3 : env .compile = true <;>
    by_cases e4 : env .loadKd = true <;> by_cases e5 : env .loadRec = true <;>
    simp_all [Act.then, failIf, act, initDev, onDev, loadModules, importKd, importRec, getDev, refreshKd, refreshRec,
      updateActiveDict, Broken]

/-! ## The device identifier -/

/-- the identifier of the device, once there is one -/
def devId (s : State V) : Option Int := s.dev.bind Dev.id

theorem keeps_id (i : Int) (env : Env) (p : Prec) :
    Keeps (fun s : State V => devId s = some i) (loadModules env p) := by
  refine keeps_then (keeps_failIf _ _) <| keeps_then (keeps_act ?_) <| keeps_then (keeps_failIf _ _) <| keeps_act ?_ <;>
  · intro s hs
    unfold devId at hs ⊢
    cases hd : s.dev with
    | none => rw [hd] at hs; cases hs
    | some d => rw [hd] at hs; exact hs

theorem keeps_id_dev {i : Int} {a : Act V} (h : ∀ d, Keeps (fun s : State V => s.dev = some d) a) :
    Keeps (fun s : State V => devId s = some i) a := by
  intro s hs
  unfold devId at hs ⊢
  cases hd : s.dev with
  | none => rw [hd] at hs; cases hs
  | some d => rw [h d s hd, ← hd]; exact hs

theorem id_call (cpu gpu : Dict V) (i : Int) (env : Env) (c : Call) (s : State V) (hs : devId s = some i) :
    devId (call cpu gpu env c s).1 = some i := by
  cases c with
  | cpu => exact hs
  | gpu id =>
    by_cases hid : id < 0
    · simp only [call, useGpu, if_pos hid]; exact hs
    · simp only [call, useGpu_eq _ _ _ _ hid]
      have hu : ∀ (d : Dev) (new : Dict V), Keeps (fun s : State V => s.dev = some d) (updateActiveDict new) :=
        fun d new => keeps_act fun _ h => h
      have he : ∀ d : Dev, Keeps (fun s : State V => s.dev = some d) (act fun s => { s with gpuEnabled := true }) :=
        fun d => keeps_act fun _ h => h
      exact keeps_id_dev (fun d => keeps_then (keeps_then (keeps_failIf _ _) <| keeps_then (keeps_dev_init d env _ _) <|
        keeps_then (keeps_dev_importKd d env) (keeps_dev_importRec d env)) (keeps_then (hu d gpu) (he d))) s hs
  | precision p =>
    simp only [call, setPrec, Act.then, act]
    split
    · exact keeps_then (keeps_failIf _ _) (keeps_then (keeps_id_dev fun d => keeps_dev_init d env _ _) <|
        keeps_then (keeps_id i env p) <| keeps_id_dev fun d => keeps_then (keeps_dev_importKd d env) <|
        keeps_then (keeps_dev_importRec d env) <|
        keeps_then (keeps_dev_refreshKd d) (keeps_dev_refreshRec d)) _ hs
    · exact hs

end Verif.Config
