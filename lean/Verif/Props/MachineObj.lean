import Verif.Lemmas.MachineObj
import Verif.Props.RunFile

/-!
# C109: making a machine
-/

set_option linter.unusedSectionVars false

namespace Verif.Props
open Verif.Mch Verif.Asrt Verif.MObj

section
variable {K : Type} [Field K] [LinearOrder K] [FloorRing K]

theorem newMachine_init {L : MathLib K} {pos : List (Val K)} {kw : Dict K} {r : Dict K × Option (MachineOut K)}
    (h : newMachine L pos kw = .ok r) : ∃ now, machineInit pos kw = .ok (r.1, now) ∧
      (if truthy now then ∃ a out, argsOf r.1 = .ok a ∧ valuesAtTurns L a = .ok out ∧ r.2 = some out else r.2 = none) := by
  unfold newMachine at h
  obtain ⟨⟨o, now⟩, hi, h⟩ := bind_inv h
  dsimp only at h
  by_cases ht : truthy now = true
  · rw [if_pos ht] at h
    obtain ⟨a, ha, h⟩ := bind_inv h
    obtain ⟨out, hout, h⟩ := bind_inv h
    cases h
    refine ⟨now, hi, ?_⟩
    rw [if_pos ht]
    exact ⟨a, out, ha, hout, rfl⟩
  · rw [if_neg ht] at h
    cases h
    refine ⟨now, hi, ?_⟩
    rw [if_neg ht]

/-- **C109**, what the arguments mean: every attribute of the new machine has the value given for it, by position or by keyword, or
its documented default; the limits of the reconstructed area are 0 and `nbins * dtbin` unless they are given; `synch_part_y` is half
the number of bins; the arrays are those of `values_at_turns`, unless `vat_now` is false. -/
theorem C109_attributes {L : MathLib K} {pos : List (Val K)} {kw : Dict K} (hnd : (kw.map Prod.fst).Nodup) {o : Dict K}
    {arrays : Option (MachineOut K)} (h : newMachine L pos kw = .ok (o, arrays)) :
    (∀ e ∈ requiredAttrs, ∃ v, argument pos kw e.2 = some v ∧ getattr o e.1 = .ok v) ∧
    (∀ e ∈ optionalAttrs, getattr o e.1 = .ok ((kw.lookup e.2.1).getD e.2.2)) ∧
    (∀ v, v ≠ .none → (kw.lookup "min_dt" = some v → getattr o "min_dt" = .ok v) ∧
      (kw.lookup "max_dt" = some v → getattr o "max_dt" = .ok v)) ∧
    ((kw.lookup "min_dt").getD .none = .none → getattr o "min_dt" = .ok (.num 0)) ∧
    ((kw.lookup "max_dt").getD .none = .none → ∃ n w, argument pos kw "nbins" = some n ∧ argument pos kw "dtbin" = some w ∧
      getattr o "max_dt" = mulV n w) ∧
    (∃ v n, argument pos kw "nbins" = some v ∧ asNum v = .ok n ∧ getattr o "synch_part_y" = .ok (.num (n / 2))) ∧
    (∀ k ∈ ["dEbin", "fitted_synch_part_x", "bunchlimit_low", "bunchlimit_up"], getattr o k = .ok .none) ∧
    (if truthy ((argument pos kw "vat_now").getD (.flag true)) then
      ∃ a out, argsOf o = .ok a ∧ valuesAtTurns L a = .ok out ∧ arrays = some out else arrays = none) := by
  obtain ⟨now, hi, harr⟩ := newMachine_init h
  obtain ⟨dturns, vrf1, rad, rho, b0, gamma, energy, nprof, nbins, dtbin, now', n, up, hB, _, _, hn, hu, hr⟩ :=
    (machineInit_iff hnd _).mp hi
  dsimp only at hr harr
  obtain ⟨ho, rfl⟩ := Prod.mk.inj hr
  have hR := reads_attrs kw n up dturns vrf1 rad rho b0 gamma energy nprof nbins dtbin
  rw [← ho] at hR
  refine ⟨?_, hR.optional, ?_, ?_, ?_, ⟨nbins, n, hB.nbins, hn, hR.synch_part_y⟩, hR.later, ?_⟩
  · have hq := hR.required
    unfold requiredAttrs at hq ⊢
    simp only [List.zip_cons_cons, List.zip_nil_left, List.mem_cons, List.not_mem_nil, or_false, forall_eq_or_imp, forall_eq]
      at hq ⊢
    obtain ⟨q1, q2, q3, q4, q5, q6, q7, q8, q9, q10⟩ := hq
    exact ⟨⟨_, hB.dturns, q1⟩, ⟨_, hB.vrf1, q2⟩, ⟨_, hB.rad, q3⟩, ⟨_, hB.rho, q4⟩, ⟨_, hB.b0, q5⟩, ⟨_, hB.gamma, q6⟩,
      ⟨_, hB.energy, q7⟩, ⟨_, hB.nprof, q8⟩, ⟨_, hB.nbins, q9⟩, ⟨_, hB.dtbin, q10⟩⟩
  · intro v hv
    constructor
    · intro hk
      rw [hR.min_dt]
      unfold lower opt
      rw [hk]
      cases v <;> first | rfl | exact (hv rfl).elim
    · intro hk
      rw [hR.max_dt]
      unfold upper opt at hu
      rw [hk] at hu
      cases v <;> first | exact (hv rfl).elim | (cases hu; rfl)
  · intro hk
    rw [hR.min_dt]
    unfold lower opt
    rw [hk]
  · intro hk
    refine ⟨nbins, dtbin, hB.nbins, hB.dtbin, ?_⟩
    rw [hR.max_dt]
    unfold upper opt at hu
    rw [hk] at hu
    cases hm : mulV nbins dtbin with
    | error e =>
      rw [hm] at hu
      cases hu
    | ok u =>
      rw [hm] at hu
      cases hu
      rfl
  · have : (argument pos kw "vat_now").getD (.flag true) = now := hB.now
    rw [this]
    exact harr

/-- **C109**, which calls are accepted (partial: calls with names that mean nothing are accepted too): exactly those that describe a machine and, unless `vat_now` is false, whose values pass the
assertions and allow the arrays to be computed. -/
theorem C109_accepts_partial (L : MathLib K) (pos : List (Val K)) (kw : Dict K) (hnd : (kw.map Prod.fst).Nodup) :
    ((∃ r, machineInit pos kw = .ok r) ↔ Describes pos kw) ∧
    ((∃ r, newMachine L pos kw = .ok r) ↔ ∃ o now, machineInit pos kw = .ok (o, now) ∧
      (truthy now = true → ∃ a out, argsOf o = .ok a ∧ valuesAtTurns L a = .ok out)) := by
  constructor
  · constructor
    · rintro ⟨r, h⟩
      obtain ⟨dturns, vrf1, rad, rho, b0, gamma, energy, nprof, nbins, dtbin, now, n, up, hB, c1, c2, hn, hu, hr⟩ :=
        (machineInit_iff hnd _).mp h
      refine ⟨hB.few, hB.once, ?_, ⟨c1, c2⟩, ?_, ?_⟩
      · have hs : ∀ {k : String} {v : Val K}, given pos kw k = some v → (argument pos kw k).isSome = true := by
          intro k v hk
          rw [← given_eq, hk]
          rfl
        unfold requiredAttrs
        simp only [List.mem_cons, List.not_mem_nil, or_false, forall_eq_or_imp, forall_eq]
        exact ⟨hs hB.dturns, hs hB.vrf1, hs hB.rad, hs hB.rho, hs hB.b0, hs hB.gamma, hs hB.energy, hs hB.nprof, hs hB.nbins,
          hs hB.dtbin⟩
      · intro v hv
        have : nbins = v := Option.some.inj (hB.nbins.symm.trans hv)
        exact ⟨n, this ▸ hn⟩
      · intro hk v w hv hw
        have e1 : nbins = v := Option.some.inj (hB.nbins.symm.trans hv)
        have e2 : dtbin = w := Option.some.inj (hB.dtbin.symm.trans hw)
        subst e1 e2
        unfold upper opt at hu
        rw [hk] at hu
        cases hm : mulV nbins dtbin with
        | error e =>
          rw [hm] at hu
          cases hu
        | ok u => exact ⟨u, rfl⟩
    · intro hD
      have hq := hD.required
      unfold requiredAttrs at hq
      simp only [List.mem_cons, List.not_mem_nil, or_false, forall_eq_or_imp, forall_eq, Option.isSome_iff_exists] at hq
      obtain ⟨⟨v1, h1⟩, ⟨v2, h2⟩, ⟨v3, h3⟩, ⟨v4, h4⟩, ⟨v5, h5⟩, ⟨v6, h6⟩, ⟨v7, h7⟩, ⟨v8, h8⟩, ⟨v9, h9⟩, ⟨v10, h10⟩⟩ := hq
      obtain ⟨n, hn⟩ := hD.bins v9 h9
      have hup : ∃ up, upper kw v9 v10 = some up := by
        unfold upper opt
        have hl := hD.limit
        cases hm : (kw.lookup "max_dt").getD .none with
        | none =>
          obtain ⟨u, hu⟩ := hl hm v9 v10 h9 h10
          exact ⟨u, by rw [hu]; rfl⟩
        | _ => exact ⟨_, rfl⟩
      obtain ⟨up, hup⟩ := hup
      exact ⟨_, (machineInit_iff hnd _).mpr ⟨v1, v2, v3, v4, v5, v6, v7, v8, v9, v10, _, n, up,
        ⟨hD.few, hD.once, h1, h2, h3, h4, h5, h6, h7, h8, h9, h10, rfl⟩, hD.notRefused.1, hD.notRefused.2, hn, hup, rfl⟩⟩
  · constructor
    · rintro ⟨r, h⟩
      obtain ⟨now, hi, harr⟩ := newMachine_init h
      refine ⟨r.1, now, hi, fun ht => ?_⟩
      rw [if_pos ht] at harr
      obtain ⟨a, out, ha, hout, _⟩ := harr
      exact ⟨a, out, ha, hout⟩
    · rintro ⟨o, now, hi, harr⟩
      unfold newMachine
      rw [hi, bind_ok]
      dsimp only
      by_cases ht : truthy now = true
      · obtain ⟨a, out, ha, hout⟩ := harr ht
        rw [if_pos ht, ha, bind_ok, hout, bind_ok]
        exact ⟨_, rfl⟩
      · rw [if_neg ht]
        exact ⟨_, rfl⟩

theorem newMachine_of_init {L : MathLib K} {pos pos' : List (Val K)} {kw kw' : Dict K}
    (h : ∀ r, machineInit pos kw = .ok r → machineInit pos' kw' = .ok r) {r : Dict K × Option (MachineOut K)}
    (hr : newMachine L pos kw = .ok r) : newMachine L pos' kw' = .ok r := by
  unfold newMachine at hr ⊢
  obtain ⟨p, hi, hr⟩ := bind_inv hr
  rw [h p hi, bind_ok]
  exact hr

/-- **C109**, the order of the keywords does not matter. -/
theorem C109_order (L : MathLib K) (pos : List (Val K)) {kw kw' : Dict K} (hnd : (kw.map Prod.fst).Nodup) (hp : kw.Perm kw')
    (r : Dict K × Option (MachineOut K)) : newMachine L pos kw = .ok r ↔ newMachine L pos kw' = .ok r := by
  have hnd' : (kw'.map Prod.fst).Nodup := (hp.map Prod.fst).nodup_iff.mp hnd
  have key : ∀ {a b : Dict K}, (a.map Prod.fst).Nodup → (b.map Prod.fst).Nodup → a.Perm b → ∀ r, machineInit pos a = .ok r →
      machineInit pos b = .ok r := by
    intro a b ha hb hab r h
    refine machineInit_mono ha hb id (fun ho k hk => ho k ((hab.map Prod.fst).mem_iff.mpr hk)) ?_ ?_ h
    · intro k _
      unfold argument
      rw [lookup_append, lookup_append, lookup_perm hab ha]
    · intro k _ _
      exact lookup_perm hab ha k
  exact ⟨newMachine_of_init (key hnd hnd' hp), newMachine_of_init (key hnd' hnd hp.symm)⟩

theorem zip_snoc {A : Type} (names : List String) (pos : List A) (v : A) (h : pos.length < names.length) :
    names.zip (pos ++ [v]) = names.zip pos ++ [(names[pos.length], v)] := by
  induction pos generalizing names with
  | nil =>
    cases names with
    | nil => exact absurd h (by simp)
    | cons a names => simp
  | cons p pos ih =>
    cases names with
    | nil => exact absurd h (by simp)
    | cons a names =>
      rw [List.cons_append, List.zip_cons_cons, ih names (by simpa using h)]
      rfl

/-- **C109**, an argument can be given by position or by the name of its parameter. -/
theorem C109_by_name (L : MathLib K) (pos : List (Val K)) (v : Val K) (kw : Dict K) (hlen : pos.length < parameters.length)
    (hnd : (((parameters[pos.length], v) :: kw).map Prod.fst).Nodup) (r : Dict K × Option (MachineOut K)) :
    newMachine L (pos ++ [v]) kw = .ok r ↔ newMachine L pos ((parameters[pos.length], v) :: kw) = .ok r := by
  have hlen' : pos.length < 11 := hlen
  have hz := zip_snoc parameters pos v hlen
  have hnd' : (kw.map Prod.fst).Nodup := by
    rw [List.map_cons, List.nodup_cons] at hnd
    exact hnd.2
  have hnew : parameters[pos.length] ∉ kw.map Prod.fst := by
    rw [List.map_cons, List.nodup_cons] at hnd
    exact hnd.1
  have hparam : parameters[pos.length] ∈ parameters := List.getElem_mem _
  have hfresh : parameters[pos.length] ∉ (parameters.zip pos).map Prod.fst := by
    have hn : parameters.Nodup := by decide +kernel
    intro hm
    obtain ⟨⟨a, b⟩, hab, he⟩ := List.mem_map.mp hm
    dsimp only at he
    subst he
    obtain ⟨i, hi, hg⟩ := List.mem_iff_getElem.mp hab
    rw [List.length_zip] at hi
    rw [List.getElem_zip] at hg
    have h1 := congrArg Prod.fst hg
    dsimp only at h1
    have := (List.Nodup.getElem_inj_iff hn).mp h1
    omega
  have harg : ∀ k, argument (pos ++ [v]) kw k = argument pos ((parameters[pos.length], v) :: kw) k := by
    intro k
    unfold argument
    rw [hz, List.append_assoc]
    rfl
  have hopt : ∀ k ∈ known, isOpt k = true → kw.lookup k = List.lookup k ((parameters[pos.length], v) :: kw) := by
    intro k _ hi
    rw [lookup_cons, if_neg]
    rintro rfl
    have : isOpt parameters[pos.length] = false := by
      have hall : ∀ k ∈ parameters, isOpt k = false := by decide +kernel
      exact hall _ hparam
    rw [this] at hi
    cases hi
  constructor
  · refine newMachine_of_init fun r h => machineInit_mono hnd' hnd (fun _ => by omega) ?_ (fun k _ => harg k) hopt h
    intro ho k hk
    rw [List.map_cons, List.mem_cons] at hk
    rcases hk with rfl | hk
    · exact hfresh
    · intro hm
      apply ho k hk
      rw [hz, List.map_append, List.mem_append]
      exact Or.inl hm
  · refine newMachine_of_init fun r h => machineInit_mono hnd hnd' (fun _ => ?_) ?_ (fun k _ => (harg k).symm)
      (fun k hk hi => (hopt k hk hi).symm) h
    · rw [List.length_append, List.length_singleton]
      omega
    · intro ho k hk
      rw [hz, List.map_append, List.mem_append]
      rintro (hm | hm)
      · exact ho k (by rw [List.map_cons]; exact List.mem_cons_of_mem _ hk) hm
      · rw [List.map_cons, List.map_nil, List.mem_singleton] at hm
        dsimp only at hm
        exact hnew (hm ▸ hk)

/-- C109 fails for names that mean nothing: they are accepted and have no effect at all.  A misspelt keyword leaves the default. -/
theorem C109_violated_unknown (L : MathLib K) (pos : List (Val K)) (kw : Dict K) (name : String) (v : Val K) (hk : name ∉ known)
    (hnd : (((name, v) :: kw).map Prod.fst).Nodup) (r : Dict K × Option (MachineOut K)) :
    newMachine L pos ((name, v) :: kw) = .ok r ↔ newMachine L pos kw = .ok r := by
  have hnd' : (kw.map Prod.fst).Nodup := by
    rw [List.map_cons, List.nodup_cons] at hnd
    exact hnd.2
  have hnp : name ∉ parameters := by
    intro h
    apply hk
    unfold known
    rw [List.mem_append]
    exact Or.inl h
  have hfresh : name ∉ (parameters.zip pos).map Prod.fst := by
    intro hm
    obtain ⟨⟨a, b⟩, hab, rfl⟩ := List.mem_map.mp hm
    exact hnp (List.of_mem_zip hab).1
  have hl : ∀ k ∈ known, List.lookup k ((name, v) :: kw) = kw.lookup k := by
    intro k hk'
    rw [lookup_cons, if_neg]
    rintro rfl
    exact hk hk'
  have harg : ∀ k ∈ parameters, argument pos ((name, v) :: kw) k = argument pos kw k := by
    intro k hk'
    unfold argument
    rw [lookup_append, lookup_append, hl]
    unfold known
    rw [List.mem_append]
    exact Or.inl hk'
  constructor
  · refine newMachine_of_init fun r h => machineInit_mono hnd hnd' id ?_ harg (fun k hk' _ => hl k hk') h
    exact fun ho k hk' => ho k (by rw [List.map_cons]; exact List.mem_cons_of_mem _ hk')
  · refine newMachine_of_init fun r h => machineInit_mono hnd' hnd id ?_ (fun k hk' => (harg k hk').symm)
      (fun k hk' _ => (hl k hk').symm) h
    intro ho k hk'
    rw [List.map_cons, List.mem_cons] at hk'
    rcases hk' with rfl | hk'
    · exact hfresh
    · exact ho k hk'

/-- C109 fails for documented attributes: "All scalar attributes can be set via the kwargs", but the charge cannot be given by the name
of its attribute.  Whatever is given as `q`, the charge of the machine is 1. -/
theorem C109_violated_charge {L : MathLib K} {pos : List (Val K)} {kw : Dict K} {v : Val K}
    (hnd : ((("q", v) :: kw).map Prod.fst).Nodup) (hc : "charge" ∉ kw.map Prod.fst) {o : Dict K} {arrays : Option (MachineOut K)}
    (h : newMachine L pos (("q", v) :: kw) = .ok (o, arrays)) : getattr o "q" = .ok (.int 1) := by
  have hq : getattr o "q" = .ok ((List.lookup "charge" (("q", v) :: kw)).getD (.int 1)) := by
    refine (C109_attributes hnd h).2.1 ("q", "charge", .int 1) ?_
    unfold optionalAttrs
    simp only [List.mem_cons, true_or, or_true]
  rw [hq, lookup_cons, if_neg (by simp), lookup_none_of_not_mem hc]
  rfl

/-- what `values_at_turns` reads from the machine made from an input file -/
theorem argsOf_file {S : Type} (text : S → String) (p : Inp.FilePars S K) {o : Dict K} {n : K} {up : Val K}
    (hR : MObj.Reads (fileKwargs text p) n up (.int p.dturns) (.num p.vrf1) (.num p.meanOrbitRad) (.num p.bendingRad) (.num p.b0)
      (.num p.transGamma) (.num p.restEnergy) (.int p.nprofiles) (.int p.nbins) (.num p.dtbin) o) :
    argsOf o = .ok (Run.machineArgs p) := by
  have hq := hR.required
  have ho := hR.optional
  unfold requiredAttrs at hq
  unfold optionalAttrs at ho
  simp only [List.zip_cons_cons, List.zip_nil_left, List.mem_cons, List.not_mem_nil, or_false, forall_eq_or_imp, forall_eq] at hq ho
  obtain ⟨q1, q2, q3, q4, q5, q6, q7, q8, q9, q10⟩ := hq
  obtain ⟨o1, o2, o3, o4, o5, o6, o7, o8, o9, o10, o11, o12, o13, o14, o15, o16, o17, o18, o19, o20, o21, o22, o23⟩ := ho
  simp only [opt, fileKwargs, lookup_cons, String.reduceEq, if_true, if_false, Option.getD_some]
    at o1 o2 o3 o4 o5 o6 o7 o8 o9 o10 o11 o12 o13 o14 o15 o16 o17 o18 o19 o20 o21 o22 o23
  unfold argsOf
  simp only [q1, q2, q3, q4, q5, q6, q7, q8, q10, o2, o3, o4, o5, o6, o7, o8, o9, o10, o12, o16,
    o17, o18, o19, o20, o21, o22, bind_ok, optNum, optInt, asNum, asInt, Except.map, pure_eq_ok]
  rfl

/-- **C109**, the machine made from an input file: the keywords written by `txt_input_to_machine` describe a machine, every
attribute has the value of its line, and the arrays are those of `values_at_turns` for these values. -/
theorem C109_file {S : Type} (L : MathLib K) (text : S → String) (p : Inp.FilePars S K) :
    ∃ o, newMachine L [] (fileKwargs text p) = (valuesAtTurns L (Run.machineArgs p)).map (fun out => (o, some out)) ∧
      (∀ e ∈ optionalAttrs (K := K), ∃ v, (e.2.1, v) ∈ fileKwargs text p ∧ getattr o e.1 = .ok v) ∧
      (∀ e ∈ requiredAttrs, ∃ v, (e.2, v) ∈ fileKwargs text p ∧ getattr o e.1 = .ok v) ∧
      getattr o "min_dt" = .ok (.num p.minDt) ∧ getattr o "max_dt" = .ok (.num p.maxDt) ∧
      getattr o "synch_part_y" = .ok (.num ((p.nbins : K) / 2)) := by
  have hnames : (fileKwargs text p).map Prod.fst = ["output_dir", "dtbin", "dturns", "synch_part_x", "demax", "filmstart", "filmstop",
      "filmstep", "niter", "snpt", "full_pp_flag", "beam_ref_frame", "machine_ref_frame", "vrf1", "vrf1dot", "vrf2", "vrf2dot", "h_num",
      "h_ratio", "phi12", "b0", "bdot", "mean_orbit_rad", "bending_rad", "trans_gamma", "rest_energy", "charge", "self_field_flag",
      "g_coupling", "zwall_over_n", "pickup_sensitivity", "nprofiles", "nbins", "min_dt", "max_dt"] := rfl
  have hnd : ((fileKwargs text p).map Prod.fst).Nodup := by
    rw [hnames]
    decide +kernel
  have hinit := (machineInit_iff (pos := []) hnd (attrs (fileKwargs text p) (p.nbins : K) (.num p.maxDt) (.int p.dturns) (.num p.vrf1)
      (.num p.meanOrbitRad) (.num p.bendingRad) (.num p.b0) (.num p.transGamma) (.num p.restEnergy) (.int p.nprofiles) (.int p.nbins)
      (.num p.dtbin), .flag true)).mpr (by
    refine ⟨.int p.dturns, .num p.vrf1, .num p.meanOrbitRad, .num p.bendingRad, .num p.b0, .num p.transGamma, .num p.restEnergy,
      .int p.nprofiles, .int p.nbins, .num p.dtbin, .flag true, (p.nbins : K), .num p.maxDt, ⟨by simp, ?_, ?_, ?_, ?_, ?_, ?_, ?_, ?_, ?_,
      ?_, ?_, ?_⟩, ?_, ?_, rfl, ?_, rfl⟩
    · intro k _
      simp
    · simp only [given, List.zip_nil_right, List.nil_append, fileKwargs, lookup_cons, String.reduceEq, if_true, if_false]
    · simp only [given, List.zip_nil_right, List.nil_append, fileKwargs, lookup_cons, String.reduceEq, if_true, if_false]
    · simp only [given, List.zip_nil_right, List.nil_append, fileKwargs, lookup_cons, String.reduceEq, if_true, if_false]
    · simp only [given, List.zip_nil_right, List.nil_append, fileKwargs, lookup_cons, String.reduceEq, if_true, if_false]
    · simp only [given, List.zip_nil_right, List.nil_append, fileKwargs, lookup_cons, String.reduceEq, if_true, if_false]
    · simp only [given, List.zip_nil_right, List.nil_append, fileKwargs, lookup_cons, String.reduceEq, if_true, if_false]
    · simp only [given, List.zip_nil_right, List.nil_append, fileKwargs, lookup_cons, String.reduceEq, if_true, if_false]
    · simp only [given, List.zip_nil_right, List.nil_append, fileKwargs, lookup_cons, String.reduceEq, if_true, if_false]
    · simp only [given, List.zip_nil_right, List.nil_append, fileKwargs, lookup_cons, String.reduceEq, if_true, if_false]
    · simp only [given, List.zip_nil_right, List.nil_append, fileKwargs, lookup_cons, String.reduceEq, if_true, if_false]
    · simp only [given, List.zip_nil_right, List.nil_append, fileKwargs, lookup_cons, String.reduceEq, if_false, List.lookup_nil,
        Option.getD_none]
    · rw [hnames]
      decide +kernel
    · rw [hnames]
      decide +kernel
    · simp only [upper, opt, fileKwargs, lookup_cons, String.reduceEq, if_true, if_false, Option.getD_some])
  have hR := reads_attrs (fileKwargs text p) (p.nbins : K) (.num p.maxDt) (.int p.dturns) (.num p.vrf1) (.num p.meanOrbitRad)
    (.num p.bendingRad) (.num p.b0) (.num p.transGamma) (.num p.restEnergy) (.int p.nprofiles) (.int p.nbins) (.num p.dtbin)
  have hA := argsOf_file text p hR
  generalize attrs (fileKwargs text p) (p.nbins : K) (.num p.maxDt) (.int p.dturns) (.num p.vrf1) (.num p.meanOrbitRad)
    (.num p.bendingRad) (.num p.b0) (.num p.transGamma) (.num p.restEnergy) (.int p.nprofiles) (.int p.nbins) (.num p.dtbin) = o
    at hinit hR hA
  refine ⟨o, ?_, ?_, ?_, ?_, hR.max_dt, hR.synch_part_y⟩
  · unfold newMachine
    rw [hinit, bind_ok]
    dsimp only
    rw [if_pos (by rfl), hA, bind_ok]
    cases valuesAtTurns L (Run.machineArgs p) <;> rfl
  · have ho := hR.optional
    unfold optionalAttrs at ho ⊢
    simp only [List.mem_cons, List.not_mem_nil, or_false, forall_eq_or_imp, forall_eq, opt, fileKwargs, lookup_cons, String.reduceEq,
      if_true, if_false, Option.getD_some, Prod.mk.injEq, true_and, false_and, false_or, exists_eq_left] at ho ⊢
    exact ho
  · have hq := hR.required
    unfold requiredAttrs at hq ⊢
    simp only [List.zip_cons_cons, List.zip_nil_left, List.mem_cons, List.not_mem_nil, or_false, forall_eq_or_imp, forall_eq, fileKwargs,
      String.reduceEq, Prod.mk.injEq, true_and, false_and, false_or, or_false, exists_eq_left] at hq ⊢
    exact hq
  · rw [hR.min_dt]
    simp only [lower, opt, fileKwargs, lookup_cons, String.reduceEq, if_true, if_false, Option.getD_some]

end

/-- the ten required arguments of the examples -/
def tenArgs : List (Val ℚ) := [.int 2, .num 4, .num 10, .num 8, .num 1, .num 5, .num 3, .int 3, .int 6, .num (1/2)]

/-- an attribute of a machine made without its arrays -/
def attrOf (pos : List (Val ℚ)) (kw : Dict ℚ) (name : String) : Verif.M (Val ℚ) := do
  let r ← newMachine libQ (pos ++ [.flag false]) kw
  getattr r.1 name

/-- the charge and a default, the limits with and without keywords -/
example : attrOf tenArgs [("charge", .int 2)] "q" = .ok (.int 2) ∧ attrOf tenArgs [("charge", .int 2)] "snpt" = .ok (.int 4) ∧
    attrOf tenArgs [] "max_dt" = .ok (.num 3) ∧ attrOf tenArgs [("max_dt", .num 2)] "max_dt" = .ok (.num 2) ∧
    attrOf tenArgs [] "min_dt" = .ok (.num 0) ∧ attrOf tenArgs [] "synch_part_y" = .ok (.num 3) ∧
    attrOf tenArgs [] "e_rest" = .ok (.num 3) := by decide +kernel

/-- refused: a missing argument, one given twice, one too many -/
example : (newMachine libQ (tenArgs.take 9) []).isOk = false ∧ (newMachine libQ (tenArgs ++ [.flag false]) [("dtbin", .num 1)]).isOk = false ∧
    (newMachine libQ (tenArgs ++ [.flag false, .int 1]) []).isOk = false ∧
    (newMachine libQ (tenArgs ++ [.flag false]) [("n_bins", .num 1)]).isOk = false ∧
    (newMachine libQ (tenArgs ++ [.flag false]) []).isOk = true := by decide +kernel

/-- the bin width by its name -/
example : (newMachine libQ (tenArgs.take 9) [("dtbin", .num (1/2)), ("vat_now", .flag false), ("snpt", .int 7)]).map Prod.fst
    = (newMachine libQ tenArgs [("snpt", .int 7), ("vat_now", .flag false)]).map Prod.fst ∧
    (newMachine libQ tenArgs [("snpt", .int 7), ("vat_now", .flag false)]).isOk = true := by decide +kernel

/-- a misspelt voltage and the charge by the name of its attribute: nothing happens -/
example : "vfr2" ∉ known ∧ attrOf tenArgs [("vfr2", .num 5)] "vrf2" = .ok (.num 0) ∧ attrOf tenArgs [("q", .int 2)] "q" = .ok (.int 1) := by
  decide +kernel

/-- the machine of the example file, with arrays for 3 turns -/
example : ((Inp.txtInputToMachine textReader (fileLines fileVals)) >>= fun p => newMachine libQ [] (fileKwargs (fun _ => "out") p)).map
    (fun r => r.2.map fun o => o.phi0.length) = .ok (some 3) := by decide +kernel

end Verif.Props
