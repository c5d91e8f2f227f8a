import Mathlib.Tactic.IntervalCases
import Verif.Lemmas.Keywords
import Verif.Lemmas.PhaseSpace

/-!
# Calls of the compiled library by position and by keyword (C103)
-/

set_option linter.unusedSectionVars false

namespace Verif.Props
open Verif.Spec Verif.Kw Verif.Recon

section
variable {V : Type _}

/-- C103: a call is accepted, and with the arguments it has, exactly as a call of a python function with the same parameters. -/
theorem C103_binding [Nonempty V] {sig : List (Param V)} {pos : List V} {kw : List (String × V)} {vs : List V}
    (hs : Distinct sig) (hk : Distinct kw) :
    bindCall sig pos kw = some vs ↔ ∃ f, Binding sig pos kw f ∧ vs = sig.map fun p => f p.1 :=
  bindCall_binding hs hk

/-- C103: it makes no difference which of the last arguments are given by keyword, and in which order. -/
theorem C103_split [Nonempty V] {sig : List (Param V)} (hs : Distinct sig) (f : String → V) (k : ℕ) (hk : k ≤ sig.length)
    {kw : List (String × V)} (hkw : kw.Perm ((sig.drop k).map fun p => (p.1, f p.1))) :
    bindCall sig ((sig.take k).map fun p => f p.1) kw = some (sig.map fun p => f p.1) := by
  have hnames : (kw.map (·.1)).Perm ((sig.map (·.1)).drop k) := by
    have := hkw.map (·.1)
    rwa [List.map_map, show ((fun q : String × V => q.1) ∘ fun p : Param V => (p.1, f p.1)) = (·.1) from rfl, List.map_drop] at this
  have hd : Distinct kw := by
    unfold Distinct
    rw [hnames.nodup_iff]
    exact hs.sublist (List.drop_sublist _ _)
  rw [bindCall_binding hs hd]
  have hlen : ((sig.take k).map fun p => f p.1).length = k := by simp [hk]
  refine ⟨f, ⟨?_, ?_, ?_, ?_, ?_⟩, rfl⟩
  · intro i v hv
    rw [List.getElem?_map] at hv
    obtain ⟨p, hp, rfl⟩ := Option.map_eq_some_iff.mp hv
    refine ⟨p, ?_, rfl⟩
    have hi : i < k := by
      have := (List.getElem?_eq_some_iff.mp hp).1; rw [List.length_take] at this; omega
    rwa [List.getElem?_take_of_lt hi] at hp
  · intro i p hi hp q hq e
    rw [hlen] at hi
    have h1 : q.1 ∈ (sig.map (·.1)).drop k := hnames.subset (List.mem_map.mpr ⟨q, hq, rfl⟩)
    have h2 : q.1 ∈ (sig.map (·.1)).take k := by
      refine List.mem_of_getElem? (i := i) ?_
      rw [List.getElem?_take_of_lt hi, List.getElem?_map, hp, e]; rfl
    have := hs
    unfold Distinct at this
    rw [← List.take_append_drop k (sig.map (·.1)), List.nodup_append] at this
    exact this.2.2 _ h2 _ h1 rfl
  · intro q hq
    obtain ⟨p, hp, e⟩ := List.mem_map.mp (hkw.subset hq)
    exact ⟨p, List.mem_of_mem_drop hp, by rw [← e]⟩
  · intro q hq
    obtain ⟨p, hp, e⟩ := List.mem_map.mp (hkw.subset hq)
    rw [← e]
  · intro i p hi hp hq
    exfalso
    rw [hlen] at hi
    have hp' : p ∈ sig.drop k := by
      refine List.mem_of_getElem? (i := i - k) ?_
      rw [List.getElem?_drop, show k + (i - k) = i by omega]; exact hp
    exact hq _ (hkw.symm.subset (List.mem_map.mpr ⟨p, hp', rfl⟩)) rfl

theorem names_sig {fn : Fn} {defaults : List V} (hd : defaults.length = fn.optional) (ho : fn.optional ≤ fn.registered.length) :
    (fn.sig defaults).map (·.1) = fn.registered := by
  unfold Fn.sig
  rw [List.map_append, List.map_map, List.map_fst_zip (by rw [List.length_map, List.length_drop]; omega)]
  rw [show ((fun p : Param V => p.1) ∘ fun n => (n, (none : Option V))) = id from rfl, List.map_id]
  exact List.take_append_drop _ _

/-- C103: for every function of the library other than the two counting functions, whatever is given by position and whatever by keyword:
the parameter of the C++ function that stands for something gets the value that the call gives to its name. -/
theorem C103_keywords_partial [Nonempty V] {fn : Fn} (hfn : fn ∈ library) (h1 : fn ≠ fnCount) (h2 : fn ≠ fnCountMulti)
    {defaults : List V} (hd : defaults.length = fn.optional) {pos : List V} {kw : List (String × V)} (hk : Distinct kw) {vs : List V}
    (h : bindCall (fn.sig defaults) pos kw = some vs) :
    ∃ f, Binding (fn.sig defaults) pos kw f ∧ vs = fn.takes.map f := by
  have hall : ∀ fn ∈ library, fn ≠ fnCount → fn ≠ fnCountMulti → fn.takes = fn.registered ∧ fn.registered.Nodup ∧
      fn.optional ≤ fn.registered.length := by decide
  obtain ⟨e, hn, ho⟩ := hall fn hfn h1 h2
  have hs : Distinct (fn.sig defaults) := by unfold Distinct; rw [names_sig hd ho]; exact hn
  obtain ⟨f, hb, rfl⟩ := (bindCall_binding hs hk).mp h
  refine ⟨f, hb, ?_⟩
  rw [e, ← names_sig hd ho, List.map_map]
  rfl

/-- C103 is violated: in every accepted call of the counting functions, the C++ parameter for the number of profiles gets what the call gives
to the name `n_particles`, and the other way round. -/
theorem C103_violated_count [Nonempty V] {fn : Fn} (hfn : fn = fnCount ∨ fn = fnCountMulti)
    {pos : List V} {kw : List (String × V)} (hk : Distinct kw) {vs : List V} (h : bindCall (fn.sig []) pos kw = some vs) :
    ∃ f, Binding (fn.sig []) pos kw f ∧ vs = fn.takes.map fun n => f (swapped n) := by
  have hall : ∀ fn ∈ [fnCount, fnCountMulti], fn.takes.map swapped = fn.registered ∧ fn.registered.Nodup ∧
      fn.optional = 0 := by decide
  obtain ⟨e, hn, ho⟩ := hall fn (by simpa using hfn)
  have hd : ([] : List V).length = fn.optional := by rw [ho]; rfl
  have hs : Distinct (fn.sig ([] : List V)) := by unfold Distinct; rw [names_sig hd (by omega)]; exact hn
  obtain ⟨f, hb, rfl⟩ := (bindCall_binding hs hk).mp h
  refine ⟨f, hb, ?_⟩
  rw [show (fun n => f (swapped n)) = f ∘ swapped from rfl, ← List.map_map, e, ← names_sig hd (by omega), List.map_map]
  rfl

/-- C103: every call of the library in the package is accepted on the backend it is written for, and every C++ parameter gets the value meant
for it. -/
theorem C103_sites [Nonempty V] {s : Site} (hs : s ∈ sites) (meant : String → V) {defaults : List V}
    (hd : defaults.length = s.fn.optional) :
    ∃ vs, bindCall (s.fn.sig defaults) (s.pos.map meant) (s.kw.map fun q => (q.1, meant q.2)) = some vs ∧
      vs.length = s.fn.takes.length ∧
      ∀ (i : ℕ) n, s.fn.takes[i]? = some n → (n ∈ s.pos ∨ n ∈ s.kw.map (·.2)) → vs[i]? = some (meant n) := by
  -- the values named by what they are, and the defaults by their place
  have h : ∀ s ∈ sites, (bindCall (s.fn.sig (["default 0", "default 1"].take s.fn.optional)) s.pos s.kw).isSome ∧
      ∀ vs, bindCall (s.fn.sig (["default 0", "default 1"].take s.fn.optional)) s.pos s.kw = some vs →
        vs.length = s.fn.takes.length ∧
        (∀ i < s.fn.takes.length, s.fn.takes.getD i "" ∈ s.pos ++ s.kw.map (·.2) → vs.getD i "" = s.fn.takes.getD i "") ∧
        ∀ n ∈ s.fn.takes ++ s.pos ++ s.kw.map (·.2), n ∉ (List.range s.fn.optional).map fun k => "default " ++ toString k := by
    decide +kernel
  have h2 : ∀ s ∈ sites, s.fn.optional ≤ 2 := by decide
  obtain ⟨hsome, hvs⟩ := h s hs
  obtain ⟨vs, hv⟩ := Option.isSome_iff_exists.mp hsome
  obtain ⟨hlen, hval, hnot⟩ := hvs vs hv
  let g : String → V := fun n =>
    if n = "default 0" then defaults.getD 0 (Classical.arbitrary V)
    else if n = "default 1" then defaults.getD 1 (Classical.arbitrary V) else meant n
  have hdef : (["default 0", "default 1"].take s.fn.optional).map g = defaults := by
    have := h2 s hs
    generalize s.fn.optional = k at hd this
    have h3 : "default 1" ≠ "default 0" := by decide
    interval_cases k
    · rw [List.length_eq_zero_iff.mp hd]; rfl
    · obtain ⟨d, rfl⟩ := List.length_eq_one_iff.mp hd
      simp [g]
    · obtain ⟨d, d', rfl⟩ := List.length_eq_two.mp hd
      simp [g]
  have hg : ∀ n ∈ s.fn.takes ++ s.pos ++ s.kw.map (·.2), n ∈ s.pos ++ s.kw.map (·.2) → g n = meant n := by
    intro n hn _
    have hall : ∀ s ∈ sites, ∀ n ∈ s.fn.takes ++ s.pos ++ s.kw.map (·.2), n ≠ "default 0" ∧ n ≠ "default 1" := by decide +kernel
    obtain ⟨a, b⟩ := hall s hs n hn
    show (if n = "default 0" then _ else if n = "default 1" then _ else meant n) = meant n
    rw [if_neg a, if_neg b]
  have hmem : ∀ n ∈ s.pos ++ s.kw.map (·.2), g n = meant n := fun n hn =>
    hg n (by rw [List.append_assoc]; exact List.mem_append_right _ hn) hn
  have hmap := bindCall_map g (s.fn.sig (["default 0", "default 1"].take s.fn.optional)) s.pos s.kw
  rw [sig_map, hdef, hv] at hmap
  have e1 : s.pos.map g = s.pos.map meant := List.map_congr_left fun n hn => hmem n (List.mem_append_left _ hn)
  have e2 : (s.kw.map fun q => (q.1, g q.2)) = s.kw.map fun q => (q.1, meant q.2) := List.map_congr_left fun q hq => by
    rw [hmem q.2 (List.mem_append_right _ (List.mem_map.mpr ⟨q, hq, rfl⟩))]
  rw [e1, e2] at hmap
  refine ⟨_, hmap, by rw [List.length_map, hlen], fun i n hi hm => ?_⟩
  obtain ⟨hlt, hget⟩ := List.getElem?_eq_some_iff.mp hi
  have hm' : n ∈ s.pos ++ s.kw.map (·.2) := by simpa only [List.mem_append] using hm
  have hD : s.fn.takes.getD i "" = n := by rw [List.getD_eq_getElem?_getD, hi]; rfl
  have := hval i hlt (by rw [hD]; exact hm')
  rw [hD, List.getD_eq_getElem?_getD, List.getElem?_eq_getElem (by omega), Option.getD_some] at this
  rw [List.getElem?_map, List.getElem?_eq_getElem (by omega), Option.map_some, this, hmem n hm']

/-- C103: `conf.reconstruct` may be called in the same ways on the CPU and on the GPU. -/
theorem C103_backends_reconstruct (defaults pos : List V) (kw : List (String × V)) :
    bindCall (gpuReconstruct.sig defaults) pos kw = bindCall (fnReconstruct.sig defaults) pos kw := rfl

/-- C103: what `conf.make_phase_space` takes on the CPU it takes on the GPU, with the result on the CPU by default. -/
theorem C103_backends_phase_space {pos : List V} {kw : List (String × V)} {vs : List V} (cpu : V)
    (h : bindCall (fnPhaseSpace.sig []) pos kw = some vs) :
    bindCall (gpuPhaseSpace.sig [cpu]) pos kw = some (vs ++ [cpu]) := by
  have e : gpuPhaseSpace.sig [cpu] = fnPhaseSpace.sig [] ++ [("result_cpu", some cpu)] := rfl
  obtain ⟨hl, ho, hn, ws, hw, rfl⟩ := bindCall_iff.mp h
  have hno : ∀ q ∈ kw, q.1 ≠ "result_cpu" := by
    intro q hq e
    obtain ⟨p, hp, e'⟩ := hn q hq
    have hp := List.mem_of_mem_drop hp
    have hall : ∀ p ∈ (fnPhaseSpace.sig ([] : List V)).map (·.1), p ≠ "result_cpu" := by
      rw [names_sig rfl (by decide)]; decide
    exact hall p.1 (List.mem_map.mpr ⟨p, hp, rfl⟩) (e'.trans e)
  rw [bindCall_iff, e]
  refine ⟨by rw [List.length_append]; omega, ?_, ?_, ws ++ [cpu], ?_, by rw [List.append_assoc]⟩
  · rw [List.take_append_of_le_length hl]; exact ho
  · intro q hq
    obtain ⟨p, hp, e'⟩ := hn q hq
    rw [List.drop_append_of_le_length hl]
    exact ⟨p, List.mem_append_left _ hp, e'⟩
  · rw [List.drop_append_of_le_length hl]
    exact List.rel_append hw (.cons (Or.inr ⟨lookup_none.mpr hno, rfl⟩) .nil)

/-- C103: what `conf.kick_and_drift` takes on the GPU it takes on the CPU. -/
theorem C103_backends_track_partial {pos : List V} {kw : List (String × V)} {vs : List V} (d0 d1 : V)
    (h : bindCall (gpuKad.sig []) pos kw = some vs) : bindCall (fnKad.sig [d0, d1]) pos kw = some vs := by
  obtain ⟨hl, ho, hn, ws, hw, rfl⟩ := bindCall_iff.mp h
  have e : (fnKad.sig [d0, d1]).map (·.1) = (gpuKad.sig ([] : List V)).map (·.1) := rfl
  have hnone : ∀ p ∈ gpuKad.sig ([] : List V), p.2 = none := by
    intro p hp
    unfold Fn.sig at hp
    rw [List.map_nil, List.zip_nil_right, List.append_nil] at hp
    obtain ⟨n, _, rfl⟩ := List.mem_map.mp hp
    rfl
  have hlen : (fnKad.sig [d0, d1]).length = (gpuKad.sig ([] : List V)).length := rfl
  rw [bindCall_iff]
  refine ⟨by omega, ?_, ?_, ws, ?_, rfl⟩
  · intro p hp q hq
    have : p.1 ∈ ((gpuKad.sig ([] : List V)).take pos.length).map (·.1) := by
      rw [List.map_take, ← e, ← List.map_take]; exact List.mem_map.mpr ⟨p, hp, rfl⟩
    obtain ⟨p', hp', e'⟩ := List.mem_map.mp this
    rw [← e']
    exact ho p' hp' q hq
  · intro q hq
    obtain ⟨p, hp, e'⟩ := hn q hq
    have : p.1 ∈ ((fnKad.sig [d0, d1]).drop pos.length).map (·.1) := by
      rw [List.map_drop, e, ← List.map_drop]; exact List.mem_map.mpr ⟨p, hp, rfl⟩
    obtain ⟨p', hp', e''⟩ := List.mem_map.mp this
    exact ⟨p', hp', e''.trans e'⟩
  · rw [List.forall₂_iff_get] at hw ⊢
    refine ⟨by rw [← hw.1, List.length_drop, List.length_drop, hlen], fun i h1 h2 => ?_⟩
    have h3 : i < ((gpuKad.sig ([] : List V)).drop pos.length).length := by rw [hw.1]; exact h2
    have := hw.2 i h3 h2
    simp only [List.get_eq_getElem] at this ⊢
    have hn' : (((gpuKad.sig ([] : List V)).drop pos.length)[i]).2 = none := hnone _ (List.mem_of_mem_drop (List.getElem_mem h3))
    have hnm : (((fnKad.sig [d0, d1]).drop pos.length)[i]).1 = (((gpuKad.sig ([] : List V)).drop pos.length)[i]).1 := by
      have a : (((fnKad.sig [d0, d1]).drop pos.length).map (·.1))[i]? = (((gpuKad.sig ([] : List V)).drop pos.length).map (·.1))[i]? := by
        rw [List.map_drop, e, ← List.map_drop]
      rw [List.getElem?_map, List.getElem?_map, List.getElem?_eq_getElem h1, List.getElem?_eq_getElem h3] at a
      simpa using a
    rcases this with h | ⟨_, h⟩
    · left; rw [hnm]; exact h
    · rw [hn'] at h; simp at h

/-- C103 is violated: `conf.kick_and_drift` without a callback is accepted on the CPU, and no such call is accepted on the GPU. -/
theorem C103_violated_backends (f : String → V) (d0 d1 : V) :
    bindCall (fnKad.sig [d0, d1]) ((kadNames.take 16).map f) [] = some ((kadNames.take 16).map f ++ [d0, d1]) ∧
    ∀ (pos : List V) (kw : List (String × V)), pos.length ≤ 17 → (∀ q ∈ kw, q.1 ≠ "callback") → bindCall (gpuKad.sig []) pos kw = none := by
  refine ⟨rfl, fun pos kw hp hk => ?_⟩
  by_contra h
  obtain ⟨vs, h⟩ := Option.ne_none_iff_exists'.mp h
  obtain ⟨hl, ho, hn, ws, hw, rfl⟩ := bindCall_iff.mp h
  have hd : ((gpuKad.sig ([] : List V)).drop pos.length)[17 - pos.length]? = some ("callback", none) := by
    rw [List.getElem?_drop, show pos.length + (17 - pos.length) = 17 by omega]; rfl
  obtain ⟨a, ha⟩ := List.getElem?_eq_some_iff.mp hd
  have := (List.forall₂_iff_get.mp hw).2 (17 - pos.length) a (by rw [← hw.length_eq]; exact a)
  rw [List.get_eq_getElem, ha] at this
  rcases this with h | ⟨_, h⟩
  · rw [lookup_none.mpr hk] at h; simp at h
  · simp at h

/-- The signature a declaration of the type stub describes. -/
def stubSig (e : String × List String × ℕ) (defaults : List V) : List (Param V) := (⟨e.1, e.2.1, e.2.2, e.2.1⟩ : Fn).sig defaults

/-- C103: the functions declared in the type stub, other than `reconstruct_multi` and `make_phase_space`, take exactly the calls the stub
declares, with the same arguments. -/
theorem C103_stub_partial {e : String × List String × ℕ} (he : e ∈ stub) (h1 : e.1 ≠ "reconstruct_multi") (h2 : e.1 ≠ "make_phase_space") :
    ∃ fn ∈ library, fn.name = e.1 ∧ ∀ (defaults pos : List V) (kw : List (String × V)),
      bindCall (fn.sig defaults) pos kw = bindCall (stubSig e defaults) pos kw := by
  have hall : ∀ e ∈ stub, e.1 ≠ "reconstruct_multi" → e.1 ≠ "make_phase_space" →
      ∃ fn ∈ library, fn.name = e.1 ∧ fn.registered = e.2.1 ∧ fn.optional = e.2.2 := by decide +kernel
  obtain ⟨fn, hfn, hn, hr, ho⟩ := hall e he h1 h2
  refine ⟨fn, hfn, hn, fun d pos kw => ?_⟩
  have : fn.sig d = stubSig e d := by unfold stubSig Fn.sig; rw [hr, ho]
  rw [this]

/-- C103 is violated: no call of `make_phase_space` that fits the declaration in the type stub is accepted by the library. -/
theorem C103_violated_stub_phase_space {e : String × List String × ℕ} (he : e ∈ stub) (hn : e.1 = "make_phase_space")
    {pos : List V} {kw : List (String × V)} (hk : Distinct kw) (h : bindCall (stubSig e []) pos kw ≠ none) :
    bindCall (fnPhaseSpace.sig []) pos kw = none := by
  have hall : ∀ e ∈ stub, e.1 = "make_phase_space" → e.2.1.length = 5 ∧ e.2.1.Nodup ∧ e.2.2 = 0 := by decide +kernel
  obtain ⟨h5, hnd, h0⟩ := hall e he hn
  obtain ⟨vs, h⟩ := Option.ne_none_iff_exists'.mp h
  have hnames : (stubSig e ([] : List V)).map (·.1) = e.2.1 := by
    unfold stubSig
    exact names_sig (fn := ⟨e.1, e.2.1, e.2.2, e.2.1⟩) (by rw [h0]; rfl) (by show e.2.2 ≤ _; omega)
  have hc := bindCall_count_full (by unfold Distinct; rw [hnames]; exact hnd) (fun p hp => by
    unfold stubSig Fn.sig at hp
    rw [List.map_nil, List.zip_nil_right, List.append_nil] at hp
    obtain ⟨n, _, rfl⟩ := List.mem_map.mp hp
    rfl) h
  rw [← List.length_map (f := (·.1)), hnames, h5] at hc
  by_contra hb
  obtain ⟨ws, hb⟩ := Option.ne_none_iff_exists'.mp hb
  have := bindCall_count hk hb
  have h4 : (fnPhaseSpace.sig ([] : List V)).length = 4 := rfl
  omega

/-- C103 is violated: a call of `reconstruct_multi` that uses one of the declared names `xpRound0`, `cutleft`, `cutright`, `centers` as
keyword is not accepted. -/
theorem C103_violated_stub_multi {n : String} (hn : n ∈ ["xpRound0", "cutleft", "cutright", "centers"]) (defaults : List V)
    (hd : defaults.length = 2) (pos : List V) {kw : List (String × V)} {v : V} (hk : (n, v) ∈ kw) :
    bindCall (fnReconstructMulti.sig defaults) pos kw = none := by
  by_contra h
  obtain ⟨vs, h⟩ := Option.ne_none_iff_exists'.mp h
  obtain ⟨_, _, hkn, _⟩ := bindCall_iff.mp h
  obtain ⟨p, hp, e⟩ := hkn _ hk
  have hall : ∀ n ∈ ["xpRound0", "cutleft", "cutright", "centers"], n ∉ fnReconstructMulti.registered := by decide
  refine hall n hn ?_
  rw [← names_sig (V := V) (defaults := defaults) (by rw [hd]; rfl) (by decide)]
  exact List.mem_map.mpr ⟨p, List.mem_of_mem_drop hp, e⟩

/-- C103 is violated: the calls `tomolib_wrappers.kick_and_drift` makes are accepted, but the C++ parameter `deltaturn` gets the number of
turns, `nturns` the number of particles and `nparts` the flag for the output. -/
theorem C103_violated_compat (meant : String → V) (d0 d1 : V) {s : Site} (hs : s ∈ compatSites) :
    ∃ vs, bindCall (s.fn.sig [d0, d1]) (s.pos.map meant) (s.kw.map fun q => (q.1, meant q.2)) = some vs ∧
      ∀ (i : ℕ) n, s.fn.takes[i]? = some n →
        (n = "deltaturn" → vs[i]? = some (meant "nturns")) ∧ (n = "nturns" → vs[i]? = some (meant "nparts")) ∧
        (n = "nparts" → vs[i]? = some (meant "ftn_out")) := by
  unfold compatSites at hs
  simp only [List.mem_cons, List.not_mem_nil, or_false] at hs
  rcases hs with rfl | rfl
  · refine ⟨_, rfl, fun i n hi => ?_⟩
    have hlt := (List.getElem?_eq_some_iff.mp hi).1
    have : i < 13 := hlt
    interval_cases i <;> (cases hi; refine ⟨?_, ?_, ?_⟩ <;> intro h <;> first | rfl | exact absurd h (by decide))
  · refine ⟨_, rfl, fun i n hi => ?_⟩
    have hlt := (List.getElem?_eq_some_iff.mp hi).1
    have : i < 18 := hlt
    interval_cases i <;> (cases hi; refine ⟨?_, ?_, ?_⟩ <;> intro h <;> first | rfl | exact absurd h (by decide))

end

section
variable {α : Type _} [Add α] [One α]

/-- C103 is violated: for every set of particles in the bins, if there are more particles than profiles, the call of `count_particles_in_bins`
with its registered keywords writes outside the array, while the call by position counts. -/
theorem C103_violated_count_keywords {npart nprof nbins : ℕ} (h0 : 0 < nprof) (h1 : nprof < npart) {parts : List α}
    {xp : List Int} (hp : parts.length = nprof * nbins) (hx : xp.length = npart * nprof) (hr : ∀ x ∈ xp, 0 ≤ x ∧ x < nbins) :
    countCall [] [("input_parts", .reals parts), ("input_xp", .ints xp), ("n_particles", .int npart), ("n_profiles", .int nprof),
      ("n_bins", .int nbins)] = .error .oob ∧
    ∃ r, countCall [.reals parts, .ints xp, .int nprof, .int npart, .int nbins] [] = .ok r := by
  have hxp : ∀ k : ℕ, k < npart * nprof → ∃ x : ℕ, x < nbins ∧ rd xp (k : Int) = .ok (x : Int) := by
    intro k hk
    have hk' : k < xp.length := by omega
    obtain ⟨h1, h2⟩ := hr xp[k] (List.getElem_mem hk')
    refine ⟨xp[k].toNat, by omega, ?_⟩
    unfold rd
    rw [if_pos (by omega), Int.toNat_natCast, List.getElem?_eq_getElem hk']
    dsimp only
    rw [Int.toNat_of_nonneg h1]
  have hbody : ∀ (k j : ℕ) (r : List α), k < npart * nprof → j < nprof → r.length = nprof * nbins →
      ∃ r', (do
        let bin ← rd xp (k : Int)
        let c ← rd r ((j * nbins : ℕ) + bin)
        upd r ((j * nbins : ℕ) + bin) (c + 1)) = .ok r' ∧ r'.length = nprof * nbins := by
    intro k j r hk hj hlen
    obtain ⟨x, hxn, hx⟩ := hxp k hk
    have hi : j * nbins + x < r.length := by
      rw [hlen]
      calc j * nbins + x < j * nbins + nbins := by omega
        _ = (j + 1) * nbins := by ring
        _ ≤ nprof * nbins := Nat.mul_le_mul_right _ hj
    rw [hx]
    show ∃ r', (do
        let c ← rd r ((j * nbins : ℕ) + (x : Int))
        upd r ((j * nbins : ℕ) + (x : Int)) (c + 1)) = .ok r' ∧ _
    rw [show ((j * nbins : ℕ) + (x : Int)) = ((j * nbins + x : ℕ) : Int) by push_cast; rfl]
    have e : rd r ((j * nbins + x : ℕ) : Int) = .ok r[j * nbins + x] := by
      unfold rd
      rw [if_pos (by omega), Int.toNat_natCast, List.getElem?_eq_getElem hi]
    rw [e]
    refine ⟨r.set (j * nbins + x) (r[j * nbins + x] + 1), ?_, by rw [List.length_set, hlen]⟩
    show upd r _ _ = _
    unfold upd
    rw [if_pos ⟨by omega, by rw [Int.toNat_natCast]; exact hi⟩, Int.toNat_natCast]
  constructor
  · show countParticlesInBin parts xp npart nprof nbins = .error .oob
    unfold countParticlesInBin
    refine forN_fail (k := 0) h0 rfl ?_
    have hNP : nprof < npart * nprof := by
      calc nprof < npart := h1
        _ = npart * 1 := (Nat.mul_one _).symm
        _ ≤ npart * nprof := Nat.mul_le_mul_left _ h0
    obtain ⟨r, h2, h3⟩ := forN_inv (n := nprof) (f := fun j r => do
        let bin ← rd xp ((0 * npart + j : ℕ) : Int)
        let c ← rd r ((j * nbins : ℕ) + bin)
        upd r ((j * nbins : ℕ) + bin) (c + 1)) (s := parts) (fun _ r => r.length = nprof * nbins) hp
      (fun j r hj hlen => hbody (0 * npart + j) j r (by omega) hj hlen)
    refine forN_fail (k := nprof) h1 h2 ?_
    obtain ⟨x, hxn, hx⟩ := hxp (0 * npart + nprof) (by omega)
    rw [hx]
    show (do
        let c ← rd r ((nprof * nbins : ℕ) + (x : Int))
        upd r ((nprof * nbins : ℕ) + (x : Int)) (c + 1)) = _
    have e : rd r ((nprof * nbins : ℕ) + (x : Int)) = .error .oob := by
      unfold rd
      rw [if_pos (by omega), List.getElem?_eq_none (by rw [h3]; omega)]
    rw [e]; rfl
  · obtain ⟨r, h2, _⟩ := forN_inv (n := npart) (f := fun i r => forN nprof (fun j r => do
        let bin ← rd xp ((i * nprof + j : ℕ) : Int)
        let c ← rd r ((j * nbins : ℕ) + bin)
        upd r ((j * nbins : ℕ) + bin) (c + 1)) r) (s := parts) (fun _ r => r.length = nprof * nbins) hp
      (fun i r hi hlen => by
        obtain ⟨r', h, h'⟩ := forN_inv (n := nprof) (f := fun j r => do
            let bin ← rd xp ((i * nprof + j : ℕ) : Int)
            let c ← rd r ((j * nbins : ℕ) + bin)
            upd r ((j * nbins : ℕ) + bin) (c + 1)) (s := r) (fun _ r => r.length = nprof * nbins) hlen
          (fun j r hj hlen => hbody (i * nprof + j) j r (by
            calc i * nprof + j < i * nprof + nprof := by omega
              _ = (i + 1) * nprof := by ring
              _ ≤ npart * nprof := Nat.mul_le_mul_right _ hi) hj hlen)
        exact ⟨r', h, h'⟩)
    exact ⟨r, h2⟩

end

/-- three particles, two profiles of two bins meet the hypotheses of `C103_violated_count_keywords`; and by position they are counted -/
example :
    countCall (α := ℚ) [] [("input_parts", .reals [0, 0, 0, 0]), ("input_xp", .ints [0, 1, 0, 0, 1, 0]), ("n_particles", .int 3),
      ("n_profiles", .int 2), ("n_bins", .int 2)] = .error .oob ∧
    countCall (α := ℚ) [.reals [0, 0, 0, 0], .ints [0, 1, 0, 0, 1, 0], .int 2, .int 3, .int 2] [] = .ok [2, 1, 2, 1] := by
  decide +kernel

/-- a call with two arguments by keyword in another order, and one default -/
example : bindCall (fnDrift.sig [true]) [false, false, true] [("turn", false), ("npart", true)] =
    some [false, false, true, true, false, true] := by
  decide

/-- a value given twice, and an unknown keyword -/
example : bindCall (fnDrift.sig [true]) [false, false, true] [("dphi", true), ("turn", false), ("npart", true)] = none ∧
    bindCall (fnPhaseSpace.sig []) [1, 2, 3] [("nbins", 4)] = none := by
  decide

end Verif.Props
