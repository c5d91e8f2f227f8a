import Verif.Spec.ProgramsObj
import Verif.Lemmas.MachineObj

/-!
# Lemmas: construction of a `ProgramsMachine`
-/

set_option linter.unusedSectionVars false

namespace Verif.PMObj
open Verif.Mch Verif.Asrt Verif.MObj

section
variable {K : Type} [Field K] [LinearOrder K] [FloorRing K]

/-- a given value, or the default -/
def Takes (g d : Option (Val K)) (v : Val K) : Prop := g = some v ∨ (g = none ∧ d = some v)

theorem bound_lookup (g : String → Option (Val K)) {params : List (String × Option (Val K))} (hnd : (params.map Prod.fst).Nodup)
    {b : Dict K}
    (h : (params.mapM fun p => match g p.1 with
      | some v => (.ok (p.1, v) : Verif.M (String × Val K))
      | none => match p.2 with
        | some v => .ok (p.1, v)
        | none => .error (.exc .typeError)) = .ok b) :
    ∀ e ∈ params, ∃ v, b.lookup e.1 = some v ∧ Takes (g e.1) e.2 v := by
  induction params generalizing b with
  | nil => intro e he; cases he
  | cons p params ih =>
    rw [List.map_cons, List.nodup_cons] at hnd
    rw [List.mapM_cons] at h
    obtain ⟨⟨k, v⟩, hv, h⟩ := bind_inv h
    obtain ⟨b', hb', h⟩ := bind_inv h
    cases h
    have hkv : k = p.1 ∧ Takes (g p.1) p.2 v := by
      revert hv
      cases hg : g p.1 with
      | some w =>
        intro hv
        cases hv
        exact ⟨rfl, Or.inl rfl⟩
      | none =>
        cases hp : p.2 with
        | none => intro hv; cases hv
        | some w =>
          intro hv
          cases hv
          exact ⟨rfl, Or.inr ⟨rfl, rfl⟩⟩
    intro e he
    rcases List.mem_cons.mp he with rfl | he
    · refine ⟨v, ?_, hkv.2⟩
      rw [lookup_cons, if_pos hkv.1.symm]
    · obtain ⟨w, hw, ht⟩ := ih hnd.2 hb' e he
      refine ⟨w, ?_, ht⟩
      rw [lookup_cons, if_neg, hw]
      rintro h
      apply hnd.1
      rw [← hkv.1]
      have h' : e.1 = k := h
      rw [← h']
      exact List.mem_map_of_mem he

/-- the bound parameters have the given values or their defaults; what is left are the other keywords -/
theorem bindArgs_inv {params : List (String × Option (Val K))} (hnd : (params.map Prod.fst).Nodup) {pos : List (Val K)} {kw b rest : Dict K}
    (h : bindArgs params pos kw = .ok (b, rest)) :
    rest = kw.filter (fun p => !(params.map Prod.fst).contains p.1) ∧
    ∀ e ∈ params, ∃ v, b.lookup e.1 = some v ∧ Takes (((params.map Prod.fst).zip pos ++ kw).lookup e.1) e.2 v := by
  unfold bindArgs at h
  dsimp only at h
  split_ifs at h
  obtain ⟨b', hb', h⟩ := bind_inv h
  cases h
  exact ⟨rfl, bound_lookup (fun k => ((params.map Prod.fst).zip pos ++ kw).lookup k) hnd hb'⟩

theorem lookup_ok {d : Dict K} {k : String} {v : Val K} (h : d.lookup k = some v) : MObj.lookup d k = .ok v := by
  unfold MObj.lookup
  rw [h]

/-- not the name of a parameter -/
def isKw (k : String) : Bool := not (parameters.contains k)

theorem keys_not_params' : ∀ p ∈ attrKeys, isKw p.2 = true := by decide +kernel

theorem baseAttrs_rest (kw : Dict K) (n : K) (up dturns rad rho gamma energy nprof nbins dtbin : Val K) :
    baseAttrs (kw.filter fun p => isKw p.1) n up dturns rad rho gamma energy nprof nbins dtbin
      = baseAttrs kw n up dturns rad rho gamma energy nprof nbins dtbin := by
  have hlo : lower (kw.filter fun p => isKw p.1) = lower kw := by
    unfold lower
    rw [opt_filter kw isKw (by decide +kernel)]
  have hv : attrKeys.map (fun p => (p.1, opt (kw.filter fun p => isKw p.1) p.2 (dflt p.2)))
      = attrKeys.map (fun p => (p.1, opt kw p.2 (dflt p.2))) := by
    apply List.map_congr_left
    intro p hp
    rw [opt_filter kw isKw (keys_not_params' p hp)]
  unfold baseAttrs
  rw [hlo, hv]

/-- names `Machine` adds to the attributes of the base class -/
def machineOnly : List String :=
  ["bunchlimit_up", "bunchlimit_low", "fitted_synch_part_x", "bdot", "b0", "vrf2dot", "vrf2", "vrf1dot", "vrf1"]

theorem getattr_base (kw : Dict K) (n : K) (up dturns vrf1 rad rho b0 gamma energy nprof nbins dtbin : Val K) {k : String}
    (hk : k ∉ machineOnly) :
    getattr (attrs kw n up dturns vrf1 rad rho b0 gamma energy nprof nbins dtbin) k
      = getattr (baseAttrs kw n up dturns rad rho gamma energy nprof nbins dtbin) k := by
  have h : ∀ k : String, k ∉ machineOnly → (attrs kw n up dturns vrf1 rad rho b0 gamma energy nprof nbins dtbin).lookup k
      = (baseAttrs kw n up dturns rad rho gamma energy nprof nbins dtbin).lookup k := by
    intro k hk
    unfold machineOnly at hk
    simp only [List.mem_cons, List.not_mem_nil, or_false, not_or] at hk
    obtain ⟨h1, h2, h3, h4, h5, h6, h7, h8, h9⟩ := hk
    unfold attrs
    simp only [List.cons_append, List.nil_append, lookup_cons, h1, h2, h3, h4, h5, h6, h7, h8, h9, if_false]
  unfold getattr MObj.lookup
  rw [h]
  split_ifs
  · decide +kernel
  · exact hk

/-- what a `ProgramsMachine` has after its constructor -/
structure Made (L : MathLib K) (pos : List (Val K)) (kw : Dict K) (o : Dict K) (now : Val K) : Prop where
  ex : ∃ dturns voltage momentum harmonics rad rho gamma energy nprof nbins dtbin tref phase : Val K, ∃ (n : K) (up : Val K) (len : ℕ) (r : K)
      (ph : List (String × Val K)),
    argument pos kw "dturns" = some dturns ∧ argument pos kw "voltage_function" = some voltage ∧
    argument pos kw "momentum_function" = some momentum ∧ argument pos kw "harmonics" = some harmonics ∧
    argument pos kw "mean_orbit_rad" = some rad ∧ argument pos kw "bending_rad" = some rho ∧ argument pos kw "trans_gamma" = some gamma ∧
    argument pos kw "rest_energy" = some energy ∧ argument pos kw "nprofiles" = some nprof ∧ argument pos kw "nbins" = some nbins ∧
    argument pos kw "dtbin" = some dtbin ∧ argument pos kw "t_ref" = some tref ∧
    (argument pos kw "phase_function").getD .none = phase ∧ (argument pos kw "vat_now").getD (.flag true) = now ∧
    lenOf harmonics = .ok len ∧ (len = 1 ∨ len = 2) ∧ asNum nbins = .ok n ∧ asNum rad = .ok r ∧
    upper (kw.filter fun p => isKw p.1) nbins dtbin = some up ∧
    phaseAttrs (kw.lookup "phi12").isSome phase = .ok ph ∧
    o = ([("voltage_raw", voltage), ("momentum_raw", momentum), ("harmonics", harmonics)] ++ ph ++
      [("circumference", .num (2 * L.pi * r)), ("t_ref", tref), ("n_turns", .none), ("i0", .none)]).reverse ++
      baseAttrs kw n up dturns rad rho gamma energy nprof nbins dtbin

theorem phaseAttrs_names {g : Bool} {v : Val K} {ph : List (String × Val K)} (h : phaseAttrs g v = .ok ph) :
    ∀ e ∈ ph, e.1 = "phase_raw" ∨ e.1 = "process_phase" := by
  unfold phaseAttrs at h
  split_ifs at h <;> cases h <;> simp

theorem made {L : MathLib K} {pos : List (Val K)} {kw : Dict K} (hnd : (kw.map Prod.fst).Nodup) {o : Dict K} {now : Val K}
    (h : programsInit L pos kw = .ok (o, now)) : Made L pos kw o now := by
  unfold programsInit at h
  obtain ⟨⟨b, rest⟩, hb, h⟩ := bind_inv h
  have hp : ((programsParams (K := K)).map Prod.fst) = parameters := rfl
  obtain ⟨hrest, hget⟩ := bindArgs_inv (by rw [hp]; decide +kernel) hb
  rw [hp] at hrest hget
  have hreq : ∀ k, (k, none) ∈ programsParams (K := K) → ∀ v, MObj.lookup b k = .ok v → argument pos kw k = some v := by
    intro k hk v hv
    obtain ⟨w, hw, ht⟩ := hget _ hk
    rw [lookup_ok hw] at hv
    cases hv
    rcases ht with ht | ⟨_, ht⟩
    · exact ht
    · cases ht
  have hopt : ∀ k d, (k, some d) ∈ programsParams (K := K) → ∀ v, MObj.lookup b k = .ok v → (argument pos kw k).getD d = v := by
    intro k d hk v hv
    obtain ⟨w, hw, ht⟩ := hget _ hk
    rw [lookup_ok hw] at hv
    cases hv
    unfold argument
    rcases ht with ht | ⟨hn, ht⟩
    · rw [ht]
      rfl
    · cases ht
      rw [hn]
      rfl
  have mem : ∀ {k : String}, (k, (none : Option (Val K))) ∈ programsParams (K := K) ↔ k ∈ ["dturns", "voltage_function",
      "momentum_function", "harmonics", "mean_orbit_rad", "bending_rad", "trans_gamma", "rest_energy", "nprofiles", "nbins", "dtbin",
      "t_ref"] := by
    intro k
    unfold programsParams
    simp only [List.mem_cons, Prod.mk.injEq, and_true, List.not_mem_nil, or_false, reduceCtorEq, and_false]
  obtain ⟨dturns, h1, h⟩ := bind_inv h
  obtain ⟨voltage, h2, h⟩ := bind_inv h
  obtain ⟨momentum, h3, h⟩ := bind_inv h
  obtain ⟨harmonics, h4, h⟩ := bind_inv h
  obtain ⟨rad, h5, h⟩ := bind_inv h
  obtain ⟨rho, h6, h⟩ := bind_inv h
  obtain ⟨gamma, h7, h⟩ := bind_inv h
  obtain ⟨energy, h8, h⟩ := bind_inv h
  obtain ⟨nprof, h9, h⟩ := bind_inv h
  obtain ⟨nbins, h10, h⟩ := bind_inv h
  obtain ⟨dtbin, h11, h⟩ := bind_inv h
  obtain ⟨tref, h12, h⟩ := bind_inv h
  obtain ⟨phase, h13, h⟩ := bind_inv h
  obtain ⟨nw, h14, h⟩ := bind_inv h
  obtain ⟨len, hlen, h⟩ := bind_inv h
  obtain ⟨_, hin, h⟩ := bind_inv h
  obtain ⟨o1, ho1, h⟩ := bind_inv h
  obtain ⟨ph, hph, h⟩ := bind_inv h
  obtain ⟨r, hr, h⟩ := bind_inv h
  obtain ⟨o2, ho2, h⟩ := bind_inv h
  cases h
  have hrest' : rest = kw.filter fun p => isKw p.1 := hrest
  have hnd' : (rest.map Prod.fst).Nodup := by rw [hrest]; exact nodup_filter hnd _
  obtain ⟨_, _, n, up, hn, hu, rfl⟩ := (baseInit_iff hnd' _ _ _ _ _ _ _ _ _).mp ho1
  rw [hrest'] at hu hph ho2
  rw [lookup_filter kw isKw (by decide +kernel)] at hph
  rw [baseAttrs_rest] at ho2
  refine ⟨dturns, voltage, momentum, harmonics, rad, rho, gamma, energy, nprof, nbins, dtbin, tref, phase, n, up, len, r, ph,
    hreq _ (mem.mpr (by simp)) _ h1, hreq _ (mem.mpr (by simp)) _ h2, hreq _ (mem.mpr (by simp)) _ h3, hreq _ (mem.mpr (by simp)) _ h4,
    hreq _ (mem.mpr (by simp)) _ h5, hreq _ (mem.mpr (by simp)) _ h6, hreq _ (mem.mpr (by simp)) _ h7, hreq _ (mem.mpr (by simp)) _ h8,
    hreq _ (mem.mpr (by simp)) _ h9, hreq _ (mem.mpr (by simp)) _ h10, hreq _ (mem.mpr (by simp)) _ h11, hreq _ (mem.mpr (by simp)) _ h12,
    hopt _ _ (by unfold programsParams; simp) _ h13, hopt _ _ (by unfold programsParams; simp) _ h14, hlen, ?_, hn, hr, hu, hph, ?_⟩
  · unfold assertInrange at hin
    split_ifs at hin with hc
    · cases hin
    · omega
  · rw [setAll_eq] at ho2
    · exact (Except.ok.inj ho2).symm
    · rw [List.map_append, List.map_append, List.mem_append, List.mem_append]
      rintro ((hm | hm) | hm)
      · revert hm
        simp
      · obtain ⟨e, he, hk⟩ := List.mem_map.mp hm
        rcases phaseAttrs_names hph e he with h | h <;> rw [h] at hk <;> revert hk <;> decide
      · revert hm
        simp

/-- names `ProgramsMachine` adds to the attributes of the base class -/
def programsOnly : List String :=
  ["voltage_raw", "momentum_raw", "harmonics", "phase_raw", "process_phase", "circumference", "t_ref", "n_turns", "i0"]

theorem phaseAttrs_cases {g : Bool} {v : Val K} {ph : List (String × Val K)} (h : phaseAttrs g v = .ok ph) :
    (g = true ∧ v = .none ∧ ph = [("phase_raw", .none), ("process_phase", .int 0)]) ∨
    (g = false ∧ v ≠ .none ∧ ph = [("phase_raw", v), ("process_phase", .int 1)]) ∨
    (g = false ∧ v = .none ∧ ph = [("process_phase", .int 2)]) := by
  cases g <;> cases v <;> cases h <;> simp

/-- a new attribute is found in front of those of the base class -/
theorem getattr_new (l : List (String × Val K)) (o : Dict K) {k : String} {v : Val K} (hk : k ≠ "nbins")
    (h : l.reverse.lookup k = some v) : getattr (l.reverse ++ o) k = .ok v := by
  unfold getattr MObj.lookup
  rw [if_neg hk, lookup_append, h]
  rfl

/-- the attributes of the base class are found behind the new ones -/
theorem getattr_old (l : List (String × Val K)) (o : Dict K) {k : String} (hk : k ∉ l.map Prod.fst) (hn : "_nbins" ∉ l.map Prod.fst) :
    getattr (l.reverse ++ o) k = getattr o k := by
  have h : ∀ k, k ∉ l.map Prod.fst → (l.reverse ++ o).lookup k = o.lookup k := by
    intro k hk
    rw [lookup_append, lookup_none_of_not_mem]
    · rfl
    · rw [List.map_reverse, List.mem_reverse]
      exact hk
  unfold getattr MObj.lookup
  split_ifs
  · rw [h _ hn]
  · rw [h _ hk]

end
end Verif.PMObj
