import Verif.Lemmas.Config

/-!
# Device and precision configuration (C47)
-/

namespace Verif.Props
open Verif.Config
open Verif.Spec (gpuSelected precSelected Careful overlay KernelsAre)
variable {V : Type}

/-! ## Example dictionaries -/

/-- routines of the CPU -/
def cpuEx : Dict String := fun n => if n = "device" then some "CPU" else if n = "reconstruct" then some "libtomo" else none
/-- routines of the GPU; the second name exists only there -/
def gpuEx : Dict String := fun n => if n = "device" then some "GPU" else if n = "asnumpy" then some "cupy" else
  if n = "reconstruct" then some "cuda" else none
/-- names of the module -/
def baseEx : Dict String := fun n => if n = "cast" then some "function cast" else none
/-- everything works -/
def fine : Env := fun _ => false
/-- the device cannot be opened -/
def noDevice : Env := fun p => decide (p = .device)
/-- the kernels cannot be compiled -/
def noCompiler : Env := fun p => decide (p = .compile)
/-- CuPy is not installed -/
def noCupy : Env := fun p => decide (p = .cupy)

/-! ## Routines -/

/-- C47 (device): after every history of calls, whatever failed in between, every name resolves to the routine of the selected
device, and names that are not routines to what the module defined.  The device selected is the one of the last `use_cpu` or
successful `use_gpu`.  In particular no routine of the other device is left over. -/
theorem C47_active_routines {cpu gpu base : Dict V} (hc : ∀ n, (base n).isSome → cpu n = none)
    (hg : ∀ n, (base n).isSome → gpu n = none) (h : List (Call × Env)) :
    let r := history cpu gpu h (start cpu base)
    let on := gpuSelected ((h.map Prod.fst).zip r.2) false
    r.1.globals = overlay base (if on then gpu else cpu) ∧ (castTo r.1).1 = on := by
  intro r on
  have h0 : Names cpu gpu base (start cpu base) :=
    ⟨rfl, install_overlay (base := base) (old := fun _ => none) (fun _ _ => rfl) (by funext n; simp [overlay])⟩
  have hn : Names cpu gpu base r.1 := history_keeps (fun env c s => names_call hc hg env c) h h0
  have he : r.1.gpuEnabled = on := history_enabled cpu gpu h (start cpu base)
  exact ⟨by rw [hn.globals, hn.active, he], he⟩

example : (∀ n, (baseEx n).isSome → cpuEx n = none) ∧ (∀ n, (baseEx n).isSome → gpuEx n = none) := by
  constructor <;>
  · intro n hn
    by_cases h : n = "cast"
    · subst h; rfl
    · simp [baseEx, h] at hn

-- after a failed and a successful `use_gpu`, and after `use_cpu` on top: "asnumpy" disappears again
example :
    let r := history cpuEx gpuEx [(.gpu 0, noCupy), (.gpu 0, fine)] (start cpuEx baseEx)
    r.2 = [some .importError, none] ∧ r.1.globals "asnumpy" = some "cupy" ∧ r.1.globals "reconstruct" = some "cuda" ∧
    r.1.globals "cast" = some "function cast" := by decide +kernel
example :
    let r := history cpuEx gpuEx [(.gpu 0, fine), (.cpu, fine)] (start cpuEx baseEx)
    r.1.globals "asnumpy" = none ∧ r.1.globals "reconstruct" = some "libtomo" ∧
    r.1.globals "cast" = some "function cast" := by decide +kernel

/-- C47 (failure): a `use_gpu` that raises leaves device, routines and precision as they were. -/
theorem C47_failed_use_gpu {cpu gpu : Dict V} {env : Env} {id : Int} {s : State V} {e : Err}
    (h : (call cpu gpu env (.gpu id) s).2 = some e) :
    let s' := (call cpu gpu env (.gpu id) s).1
    s'.globals = s.globals ∧ castTo s' = castTo s := by
  obtain ⟨h1, h2, _, h4⟩ := useGpu_raised h
  exact ⟨h4, by simp only [castTo, call, h1, h2]⟩

example : (call cpuEx gpuEx noDevice (.gpu 0) (start cpuEx baseEx)).2 = some .cudaRuntime := by decide +kernel

/-- C47 (precision): after every history the arrays made by `cast` have the precision asked for last, also if that call raised. -/
theorem C47_cast_precision (cpu gpu base : Dict V) (h : List (Call × Env)) :
    (castTo (history cpu gpu h (start cpu base)).1).2 = precSelected (h.map Prod.fst) .double :=
  history_prec cpu gpu h (start cpu base)

example : precSelected [.precision .single, .gpu 0, .cpu] .double = .single := by decide +kernel

/-! ## Kernels -/

/-- C47 (kernels): setting the precision while the GPU is in use leaves, if it does not raise, exactly the kernels of that
precision, whatever happened before. -/
theorem C47_set_precision_on_gpu {cpu gpu : Dict V} {env : Env} {p : Prec} {s : State V} (hg : (castTo s).1 = true)
    (h : (call cpu gpu env (.precision p) s).2 = none) :
    let s' := (call cpu gpu env (.precision p) s).1
    KernelsAre s' p ∧ castTo s' = (true, p) := by
  have hp := prec_call cpu gpu env (.precision p) s
  have he := enabled_call cpu gpu env (.precision p) s
  simp only [gpuSelected] at hp he
  have hg' : s.gpuEnabled = true := hg
  refine ⟨?_, by simp only [castTo, hp, he, hg']⟩
  simp only [call, setPrec, Act.then, act, hg', if_true] at h ⊢
  exact loadAndRefresh_done h

example :
    let s := (history cpuEx gpuEx [(.gpu 0, fine)] (start cpuEx baseEx)).1
    (castTo s).1 = true ∧ (call cpuEx gpuEx fine (.precision .single) s).2 = none := by decide +kernel

/-- C47 (kernels), partial: along a history in which no call raises and the precision is not changed while the CPU is in use
after the GPU has been in use, the GPU kernels have the configured precision whenever the GPU is in use.  Missing: the two
conditions; without them it is false (`C47_violated_precision`, `C47_violated_failed_precision`). -/
theorem C47_kernels_partial (cpu gpu base : Dict V) (h : List (Call × Env))
    (hc : Careful false false .double (h.map Prod.fst))
    (hn : ∀ r ∈ (history cpu gpu h (start cpu base)).2, r = none) :
    let s := (history cpu gpu h (start cpu base)).1
    (castTo s).1 = true → KernelsAre s (castTo s).2 := by
  intro s hg
  exact (careful_history (used := false) h (start cpu base) ⟨⟨rfl, rfl, rfl⟩, rfl⟩ hc hn hg).2

example :
    let h : List (Call × Env) := [(.precision .single, fine), (.gpu 0, fine), (.precision .double, fine), (.cpu, fine),
      (.gpu 0, fine), (.precision .single, fine)]
    Careful false false .double (h.map Prod.fst) ∧ (∀ r ∈ (history cpuEx gpuEx h (start cpuEx baseEx)).2, r = none) ∧
    (castTo (history cpuEx gpuEx h (start cpuEx baseEx)).1).1 = true := by
  refine ⟨?_, by decide +kernel, by decide +kernel⟩
  simp [Careful]

/-- C47 is violated: `use_gpu(); use_cpu(); set_single_precision(); use_gpu()` raises nothing and leaves kernels of double
precision in use, while arrays are made in single precision. -/
theorem C47_violated_precision :
    let h : List (Call × Env) := [(.gpu 0, fine), (.cpu, fine), (.precision .single, fine), (.gpu 0, fine)]
    let r := history cpuEx gpuEx h (start cpuEx baseEx)
    (∀ e ∈ r.2, e = none) ∧ castTo r.1 = (true, .single) ∧ KernelsAre r.1 .double := by
  refine ⟨by decide +kernel, by decide +kernel, by decide +kernel, by decide +kernel⟩

/-- C47 is violated: a `set_single_precision` that fails to compile the kernels leaves the precision changed and the kernels
unchanged; the GPU stays in use. -/
theorem C47_violated_failed_precision :
    let h : List (Call × Env) := [(.gpu 0, fine), (.precision .single, noCompiler)]
    let r := history cpuEx gpuEx h (start cpuEx baseEx)
    r.2 = [none, some .compilation] ∧ castTo r.1 = (true, .single) ∧ KernelsAre r.1 .double := by
  refine ⟨by decide +kernel, by decide +kernel, by decide +kernel, by decide +kernel⟩

/-- C47 is violated (selection): once the first `use_gpu` has failed for any other reason than a missing CuPy, no `use_gpu` of the
same process ever succeeds, even when the reason of the failure is gone. -/
theorem C47_violated_never_recovers (cpu gpu base : Dict V) (id : Int) (env : Env) (e : Err)
    (hf : (call cpu gpu env (.gpu id) (start cpu base)).2 = some e) (hi : e ≠ .importError) (h : List (Call × Env)) :
    (castTo (history cpu gpu ((.gpu id, env) :: h) (start cpu base)).1).1 = false :=
  (history_keeps (P := Broken) (fun env c s => broken_call cpu gpu env c s) h
    (broken_first ⟨rfl, rfl, rfl⟩ rfl hf hi)).1

example :
    let r := history cpuEx gpuEx [(.gpu 0, noDevice), (.gpu 0, fine), (.gpu 1, fine)] (start cpuEx baseEx)
    r.2 = [some .cudaRuntime, some .attribute, some .attribute] := by decide +kernel

/-- … while a missing CuPy does no harm. -/
theorem C47_missing_cupy (cpu gpu : Dict V) (id : Int) (env : Env) (s : State V) (hid : 0 ≤ id) (he : env .cupy = true) :
    call cpu gpu env (.gpu id) s = (s, some .importError) := by
  simp only [call, useGpu, if_neg (not_lt.2 hid), Act.then, failIf, he]
  rfl

example : noCupy .cupy = true := by decide +kernel

/-- C47 is violated (device identifier): the device opened first is kept for ever; `use_gpu(j)` after `use_gpu(i)` succeeds and
goes on using device `i`. -/
theorem C47_violated_device_id (cpu gpu base : Dict V) (id : Int) (hid : 0 ≤ id) (h : List (Call × Env)) :
    devId (history cpu gpu ((.gpu id, fine) :: h) (start cpu base)).1 = some id := by
  refine history_keeps (P := fun s => devId s = some id) (fun env c s => id_call cpu gpu id env c s) h ?_
  simp only [call, useGpu, if_neg (not_lt.2 hid)]
  rfl

example :
    let r := history cpuEx gpuEx [(.gpu 0, fine), (.gpu 1, fine)] (start cpuEx baseEx)
    r.2 = [none, none] ∧ devId r.1 = some 0 := by decide +kernel

end Verif.Props
