import Verif.Spec.MachineObj
import Verif.Lemmas.Run

/-!
# Lemmas on dictionaries and machine objects
-/

set_option linter.unusedSectionVars false

namespace Verif.MObj
open Verif.Mch Verif.Asrt

section
variable {K : Type _}

theorem lookup_cons (d : Dict K) (p : String × Val K) (k : String) :
    List.lookup k (p :: d) = if k = p.1 then some p.2 else d.lookup k := by
  rw [List.lookup_cons]
  by_cases h : k = p.1
  · subst h
    simp
  · have : (k == p.1) = false := by rw [beq_eq_false_iff_ne]; exact h
    rw [this, if_neg h]

theorem lookup_put (d : Dict K) (k k' : String) (v : Val K) :
    (put d k v).lookup k' = if k' = k then some v else d.lookup k' := lookup_cons d (k, v) k'

theorem lookup_none_of_not_mem {d : Dict K} {k : String} (h : k ∉ d.map Prod.fst) : d.lookup k = none := by
  induction d with
  | nil => rfl
  | cons p d ih =>
    rw [List.map_cons, List.mem_cons, not_or] at h
    rw [lookup_cons, if_neg h.1, ih h.2]

theorem lookup_isSome {d : Dict K} {k : String} : (d.lookup k).isSome = true ↔ k ∈ d.map Prod.fst := by
  constructor
  · intro h
    by_contra hn
    rw [lookup_none_of_not_mem hn] at h
    cases h
  · intro h
    induction d with
    | nil => cases h
    | cons p d ih =>
      rw [List.map_cons, List.mem_cons] at h
      rw [lookup_cons]
      by_cases hk : k = p.1
      · rw [if_pos hk]
        rfl
      · rw [if_neg hk]
        exact ih (h.resolve_left hk)

/-- the value a name has in the processed keywords -/
theorem processKwargs_lookup (D : Dict K) (kw : Dict K) (hnd : (kw.map Prod.fst).Nodup) (k : String) :
    (processKwargs D kw).lookup k = (D.lookup k).map fun v => (kw.lookup k).getD v := by
  have key : ∀ (kw acc : Dict K), (kw.map Prod.fst).Nodup →
      (kw.foldl (fun d p => if (D.lookup p.1).isSome then put d p.1 p.2 else d) acc).lookup k
        = if (D.lookup k).isSome then ((kw.lookup k).elim (acc.lookup k) some) else acc.lookup k := by
    intro kw
    induction kw with
    | nil => intro acc _; simp
    | cons p kw ih =>
      intro acc hnd
      rw [List.map_cons, List.nodup_cons] at hnd
      rw [List.foldl_cons, ih _ hnd.2, List.lookup_cons]
      by_cases hk : k = p.1
      · subst hk
        have hn : kw.lookup p.1 = none := lookup_none_of_not_mem hnd.1
        by_cases hD : (D.lookup p.1).isSome = true
        · simp only [hD, if_true, hn, Option.elim_none, lookup_put, beq_self_eq_true, Option.elim_some]
        · simp only [hD, if_false, Bool.false_eq_true]
      · have hb : (k == p.1) = false := by simp [hk]
        rw [hb]
        by_cases hD : (D.lookup p.1).isSome = true
        · simp only [hD, if_true, lookup_put, hk, if_false]
        · simp only [hD, Bool.false_eq_true, if_false]
  unfold processKwargs
  rw [key kw D hnd]
  cases hD : D.lookup k with
  | none => simp
  | some v =>
    cases kw.lookup k <;> simp

theorem lookup_filter (kw : Dict K) (q : String → Bool) {k : String} (hk : q k = true) :
    (kw.filter fun p => q p.1).lookup k = kw.lookup k := by
  induction kw with
  | nil => rfl
  | cons p kw ih =>
    rw [List.filter_cons]
    by_cases hp : q p.1 = true
    · rw [if_pos hp, List.lookup_cons, List.lookup_cons, ih]
    · rw [if_neg hp, ih, List.lookup_cons]
      have : (k == p.1) = false := by
        rw [beq_eq_false_iff_ne]
        rintro rfl
        exact hp hk
      rw [this]

theorem lookup_append (a b : Dict K) (k : String) : (a ++ b).lookup k = (a.lookup k).elim (b.lookup k) some := by
  induction a with
  | nil => rfl
  | cons p a ih =>
    rw [List.cons_append, List.lookup_cons, List.lookup_cons, ih]
    cases k == p.1 <;> rfl

/-- names a permutation of the keywords does not matter -/
theorem lookup_perm {a b : Dict K} (h : a.Perm b) (hnd : (a.map Prod.fst).Nodup) (k : String) : a.lookup k = b.lookup k := by
  induction h with
  | nil => rfl
  | cons p _ ih =>
    rw [List.map_cons, List.nodup_cons] at hnd
    rw [List.lookup_cons, List.lookup_cons, ih hnd.2]
  | swap p q l =>
    rw [List.map_cons, List.map_cons, List.nodup_cons, List.mem_cons, not_or] at hnd
    simp only [lookup_cons]
    by_cases h1 : k = p.1
    · subst h1
      rw [if_pos rfl, if_pos rfl, if_neg fun h => hnd.1.1 h.symm]
    · rw [if_neg h1, if_neg h1]
  | trans h1 h2 ih1 ih2 =>
    rw [ih1 hnd, ih2 ((h1.map Prod.fst).nodup_iff.mp hnd)]

end

section
variable {K : Type _} [Field K] [LinearOrder K] [FloorRing K]

/-- the value given for a parameter, by position or by name -/
def given (pos : List (Val K)) (kw : Dict K) (k : String) : Option (Val K) :=
  (((machineParams (K := K)).map Prod.fst).zip pos ++ kw).lookup k

/-- the value of an optional keyword -/
def opt (kw : Dict K) (k : String) (d : Val K) : Val K := (kw.lookup k).getD d

/-- the upper limit of the reconstructed area: `none` if it cannot be computed -/
def upper (kw : Dict K) (nbins dtbin : Val K) : Option (Val K) :=
  match opt kw "max_dt" .none with
  | .none => (mulV nbins dtbin).toOption
  | v => some v

/-- the lower limit of the reconstructed area -/
def lower (kw : Dict K) : Val K :=
  match opt kw "min_dt" .none with
  | .none => .num 0
  | v => v

/-- the arguments of a call can be bound to the parameters of the constructor -/
structure Bound (pos : List (Val K)) (kw : Dict K) (dturns vrf1 rad rho b0 gamma energy nprof nbins dtbin now : Val K) : Prop where
  few : pos.length ≤ 11
  once : ∀ k ∈ kw.map Prod.fst, k ∉ (((machineParams (K := K)).map Prod.fst).zip pos).map Prod.fst
  dturns : given pos kw "dturns" = some dturns
  vrf1 : given pos kw "vrf1" = some vrf1
  rad : given pos kw "mean_orbit_rad" = some rad
  rho : given pos kw "bending_rad" = some rho
  b0 : given pos kw "b0" = some b0
  gamma : given pos kw "trans_gamma" = some gamma
  energy : given pos kw "rest_energy" = some energy
  nprof : given pos kw "nprofiles" = some nprof
  nbins : given pos kw "nbins" = some nbins
  dtbin : given pos kw "dtbin" = some dtbin
  now : (given pos kw "vat_now").getD (.flag true) = now

theorem bindArgs_iff (pos : List (Val K)) (kw : Dict K) (r : Dict K × Dict K) :
    bindArgs machineParams pos kw = .ok r ↔
      ∃ dturns vrf1 rad rho b0 gamma energy nprof nbins dtbin now,
        Bound pos kw dturns vrf1 rad rho b0 gamma energy nprof nbins dtbin now ∧
        r = ([("dturns", dturns), ("vrf1", vrf1), ("mean_orbit_rad", rad), ("bending_rad", rho), ("b0", b0),
          ("trans_gamma", gamma), ("rest_energy", energy), ("nprofiles", nprof), ("nbins", nbins), ("dtbin", dtbin),
          ("vat_now", now)], kw.filter fun p => !((machineParams (K := K)).map Prod.fst).contains p.1) := by
  unfold bindArgs
  dsimp only
  have hlen : (machineParams (K := K)).length = 11 := rfl
  rw [hlen]
  by_cases h1 : 11 < pos.length
  · rw [if_pos h1]
    constructor
    · intro h; cases h
    · rintro ⟨_, _, _, _, _, _, _, _, _, _, _, hb, _⟩
      exact absurd hb.few (by omega)
  rw [if_neg h1]
  by_cases h2 : (kw.any fun p => ((((machineParams (K := K)).map Prod.fst).zip pos).lookup p.1).isSome) = true
  · rw [if_pos h2]
    constructor
    · intro h; cases h
    · rintro ⟨_, _, _, _, _, _, _, _, _, _, _, hb, _⟩
      rw [List.any_eq_true] at h2
      obtain ⟨p, hp, h2⟩ := h2
      exact absurd (lookup_isSome.mp h2) (hb.once _ (List.mem_map_of_mem hp))
  rw [if_neg h2]
  have honce : ∀ k ∈ kw.map Prod.fst, k ∉ (((machineParams (K := K)).map Prod.fst).zip pos).map Prod.fst := by
    intro k hk hk'
    apply h2
    rw [List.any_eq_true]
    obtain ⟨p, hp, rfl⟩ := List.mem_map.mp hk
    exact ⟨p, hp, lookup_isSome.mpr hk'⟩
  have hg : ∀ k, (((machineParams (K := K)).map Prod.fst).zip pos ++ kw).lookup k = given pos kw k := fun _ => rfl
  simp only [hg]
  unfold machineParams
  simp only [List.mapM_cons, List.mapM_nil]
  cases g_dturns : given pos kw "dturns" with
  | none =>
    refine ⟨fun h => (by cases h), ?_⟩
    rintro ⟨_, _, _, _, _, _, _, _, _, _, _, hb, _⟩
    rw [hb.dturns] at g_dturns
    cases g_dturns
  | some dturns =>
  simp only [bind_ok]
  cases g_vrf1 : given pos kw "vrf1" with
  | none =>
    refine ⟨fun h => (by cases h), ?_⟩
    rintro ⟨_, _, _, _, _, _, _, _, _, _, _, hb, _⟩
    rw [hb.vrf1] at g_vrf1
    cases g_vrf1
  | some vrf1 =>
  simp only [bind_ok]
  cases g_rad : given pos kw "mean_orbit_rad" with
  | none =>
    refine ⟨fun h => (by cases h), ?_⟩
    rintro ⟨_, _, _, _, _, _, _, _, _, _, _, hb, _⟩
    rw [hb.rad] at g_rad
    cases g_rad
  | some rad =>
  simp only [bind_ok]
  cases g_rho : given pos kw "bending_rad" with
  | none =>
    refine ⟨fun h => (by cases h), ?_⟩
    rintro ⟨_, _, _, _, _, _, _, _, _, _, _, hb, _⟩
    rw [hb.rho] at g_rho
    cases g_rho
  | some rho =>
  simp only [bind_ok]
  cases g_b0 : given pos kw "b0" with
  | none =>
    refine ⟨fun h => (by cases h), ?_⟩
    rintro ⟨_, _, _, _, _, _, _, _, _, _, _, hb, _⟩
    rw [hb.b0] at g_b0
    cases g_b0
  | some b0 =>
  simp only [bind_ok]
  cases g_gamma : given pos kw "trans_gamma" with
  | none =>
    refine ⟨fun h => (by cases h), ?_⟩
    rintro ⟨_, _, _, _, _, _, _, _, _, _, _, hb, _⟩
    rw [hb.gamma] at g_gamma
    cases g_gamma
  | some gamma =>
  simp only [bind_ok]
  cases g_energy : given pos kw "rest_energy" with
  | none =>
    refine ⟨fun h => (by cases h), ?_⟩
    rintro ⟨_, _, _, _, _, _, _, _, _, _, _, hb, _⟩
    rw [hb.energy] at g_energy
    cases g_energy
  | some energy =>
  simp only [bind_ok]
  cases g_nprof : given pos kw "nprofiles" with
  | none =>
    refine ⟨fun h => (by cases h), ?_⟩
    rintro ⟨_, _, _, _, _, _, _, _, _, _, _, hb, _⟩
    rw [hb.nprof] at g_nprof
    cases g_nprof
  | some nprof =>
  simp only [bind_ok]
  cases g_nbins : given pos kw "nbins" with
  | none =>
    refine ⟨fun h => (by cases h), ?_⟩
    rintro ⟨_, _, _, _, _, _, _, _, _, _, _, hb, _⟩
    rw [hb.nbins] at g_nbins
    cases g_nbins
  | some nbins =>
  simp only [bind_ok]
  cases g_dtbin : given pos kw "dtbin" with
  | none =>
    refine ⟨fun h => (by cases h), ?_⟩
    rintro ⟨_, _, _, _, _, _, _, _, _, _, _, hb, _⟩
    rw [hb.dtbin] at g_dtbin
    cases g_dtbin
  | some dtbin =>
  simp only [bind_ok]
  cases g_now : given pos kw "vat_now" with
  | none =>
    simp only [bind_ok, pure_eq_ok]
    constructor
    · intro h
      cases h
      exact ⟨dturns, vrf1, rad, rho, b0, gamma, energy, nprof, nbins, dtbin, _, ⟨by omega, honce, g_dturns, g_vrf1, g_rad, g_rho,
        g_b0, g_gamma, g_energy, g_nprof, g_nbins, g_dtbin, by rw [g_now]; rfl⟩, rfl⟩
    · rintro ⟨_, _, _, _, _, _, _, _, _, _, _, hb, rfl⟩
      have e_dturns := Option.some.inj (g_dturns.symm.trans hb.dturns)
      have e_vrf1 := Option.some.inj (g_vrf1.symm.trans hb.vrf1)
      have e_rad := Option.some.inj (g_rad.symm.trans hb.rad)
      have e_rho := Option.some.inj (g_rho.symm.trans hb.rho)
      have e_b0 := Option.some.inj (g_b0.symm.trans hb.b0)
      have e_gamma := Option.some.inj (g_gamma.symm.trans hb.gamma)
      have e_energy := Option.some.inj (g_energy.symm.trans hb.energy)
      have e_nprof := Option.some.inj (g_nprof.symm.trans hb.nprof)
      have e_nbins := Option.some.inj (g_nbins.symm.trans hb.nbins)
      have e_dtbin := Option.some.inj (g_dtbin.symm.trans hb.dtbin)
      have e_now := hb.now
      rw [g_now] at e_now
      subst e_dturns e_vrf1 e_rad e_rho e_b0 e_gamma e_energy e_nprof e_nbins e_dtbin e_now
      rfl
  | some now =>
    simp only [bind_ok, pure_eq_ok]
    constructor
    · intro h
      cases h
      exact ⟨dturns, vrf1, rad, rho, b0, gamma, energy, nprof, nbins, dtbin, _, ⟨by omega, honce, g_dturns, g_vrf1, g_rad, g_rho,
        g_b0, g_gamma, g_energy, g_nprof, g_nbins, g_dtbin, by rw [g_now]; rfl⟩, rfl⟩
    · rintro ⟨_, _, _, _, _, _, _, _, _, _, _, hb, rfl⟩
      have e_dturns := Option.some.inj (g_dturns.symm.trans hb.dturns)
      have e_vrf1 := Option.some.inj (g_vrf1.symm.trans hb.vrf1)
      have e_rad := Option.some.inj (g_rad.symm.trans hb.rad)
      have e_rho := Option.some.inj (g_rho.symm.trans hb.rho)
      have e_b0 := Option.some.inj (g_b0.symm.trans hb.b0)
      have e_gamma := Option.some.inj (g_gamma.symm.trans hb.gamma)
      have e_energy := Option.some.inj (g_energy.symm.trans hb.energy)
      have e_nprof := Option.some.inj (g_nprof.symm.trans hb.nprof)
      have e_nbins := Option.some.inj (g_nbins.symm.trans hb.nbins)
      have e_dtbin := Option.some.inj (g_dtbin.symm.trans hb.dtbin)
      have e_now := hb.now
      rw [g_now] at e_now
      subst e_dturns e_vrf1 e_rad e_rho e_b0 e_gamma e_energy e_nprof e_nbins e_dtbin e_now
      rfl

theorem lookup_process {D kw : Dict K} (hnd : (kw.map Prod.fst).Nodup) {k : String} {v : Val K} (h : D.lookup k = some v) :
    lookup (processKwargs D kw) k = .ok (opt kw k v) := by
  unfold lookup
  rw [processKwargs_lookup D kw hnd, h]
  rfl

theorem opt_filter (kw : Dict K) (q : String → Bool) {k : String} (hk : q k = true) (v : Val K) :
    opt (kw.filter fun p => q p.1) k v = opt kw k v := by
  unfold opt
  rw [lookup_filter kw q hk]

theorem nodup_filter {kw : Dict K} (hnd : (kw.map Prod.fst).Nodup) (q : String × Val K → Bool) :
    ((kw.filter q).map Prod.fst).Nodup := hnd.sublist (List.Sublist.map _ List.filter_sublist)

theorem limitsOf_eq {kw : Dict K} (hnd : (kw.map Prod.fst).Nodup) (nbins dtbin : Val K) :
    limitsOf (processKwargs baseDefaults kw) nbins dtbin
      = match upper kw nbins dtbin with
        | some up => .ok (lower kw, up)
        | none => .error (.exc .typeError) := by
  unfold limitsOf upper
  rw [lookup_process hnd (v := .none) (by rfl), lookup_process hnd (v := .none) (by rfl), bind_ok, bind_ok]
  have hm : ∀ a b : Val K, (∃ v, mulV a b = .ok v) ∨ mulV a b = .error (.exc .typeError) := by
    intro a b
    cases a <;> cases b <;> first | exact Or.inr rfl | exact Or.inl ⟨_, rfl⟩
  cases h : opt kw "max_dt" .none with
  | none =>
    dsimp only
    rcases hm nbins dtbin with ⟨v, hv⟩ | he
    · rw [hv]
      rfl
    · rw [he]
      rfl
  | _ => rfl

theorem setAll_eq (o : Dict K) (l : List (String × Val K)) (h : "nbins" ∉ l.map Prod.fst) :
    setAll o l = .ok (l.reverse ++ o) := by
  unfold setAll
  induction l generalizing o with
  | nil => rfl
  | cons p l ih =>
    rw [List.map_cons, List.mem_cons, not_or] at h
    have hs : setattr o p.1 p.2 = .ok (p :: o) := if_neg fun e => h.1 e.symm
    rw [List.foldlM_cons, hs, bind_ok, ih _ h.2, List.reverse_cons, List.append_assoc]
    rfl

/-- the default of an optional keyword -/
def dflt (k : String) : Val K := ((baseDefaults (K := K)).lookup k).getD .none

theorem keys_known : ∀ p ∈ attrKeys, ((baseDefaults (K := K)).lookup p.2).isSome = true := by
  have h1 : (baseDefaults (K := K)).map Prod.fst = ["demax", "phi12", "h_ratio", "synch_part_x", "charge", "h_num", "g_coupling",
    "zwall_over_n", "min_dt", "max_dt", "self_field_flag", "full_pp_flag", "pickup_sensitivity", "machine_ref_frame",
    "beam_ref_frame", "snpt", "niter", "filmstart", "filmstop", "filmstep", "output_dir"] := rfl
  intro p hp
  rw [lookup_isSome, h1]
  revert p
  decide +kernel

theorem vals_eq {kw : Dict K} (hnd : (kw.map Prod.fst).Nodup) (keys : List (String × String))
    (hk : ∀ p ∈ keys, ((baseDefaults (K := K)).lookup p.2).isSome = true) :
    (keys.mapM fun p => do
      let v ← lookup (processKwargs baseDefaults kw) p.2
      pure (p.1, v)) = (.ok (keys.map fun p => (p.1, opt kw p.2 (dflt p.2))) : M (Dict K)) := by
  induction keys with
  | nil => rfl
  | cons p keys ih =>
    rw [List.mapM_cons, ih fun q hq => hk q (List.mem_cons_of_mem _ hq)]
    have h := hk p (List.mem_cons_self ..)
    obtain ⟨v, hv⟩ := Option.isSome_iff_exists.mp h
    have hd : dflt (K := K) p.2 = v := by
      unfold dflt
      rw [hv]
      rfl
    rw [lookup_process hnd hv, List.map_cons, hd]
    rfl

/-- the attributes of the base class, the last one first -/
def baseAttrs (kw : Dict K) (n : K) (up dturns rad rho gamma energy nprof nbins dtbin : Val K) : Dict K :=
  (([("min_dt", lower kw), ("max_dt", up)] : Dict K) ++ attrKeys.map (fun p => (p.1, opt kw p.2 (dflt p.2))) ++
      ([("dEbin", Val.none)] : Dict K)).reverse ++
    [("dtbin", dtbin), ("synch_part_y", .num (n / 2)), ("_nbins", nbins), ("nprofiles", nprof),
     ("e_rest", energy), ("trans_gamma", gamma), ("bending_rad", rho), ("mean_orbit_rad", rad), ("dturns", dturns)]

theorem setAll_base (dturns rad rho gamma energy nprof nbins dtbin : Val K) :
    setAll ([] : Dict K) [("dturns", dturns), ("mean_orbit_rad", rad), ("bending_rad", rho), ("trans_gamma", gamma),
      ("e_rest", energy), ("nprofiles", nprof), ("nbins", nbins), ("dtbin", dtbin)]
      = (asNum nbins).map fun n => [("dtbin", dtbin), ("synch_part_y", .num (n / 2)), ("_nbins", nbins), ("nprofiles", nprof),
        ("e_rest", energy), ("trans_gamma", gamma), ("bending_rad", rho), ("mean_orbit_rad", rad), ("dturns", dturns)] := by
  unfold setAll
  simp only [List.foldlM_cons, List.foldlM_nil, setattr, String.reduceEq, if_false, if_true, bind_ok]
  cases asNum nbins <;> rfl

theorem nbins_not_key : "nbins" ∉ attrKeys.map Prod.fst := by decide +kernel

theorem baseInit_iff {kw : Dict K} (hnd : (kw.map Prod.fst).Nodup) (dturns rad rho gamma energy nprof nbins dtbin : Val K)
    (o : Dict K) :
    baseInit dturns rad rho gamma energy nprof nbins dtbin kw = .ok o ↔
      "n_profiles" ∉ kw.map Prod.fst ∧ "n_bins" ∉ kw.map Prod.fst ∧ ∃ n up, asNum nbins = .ok n ∧
        upper kw nbins dtbin = some up ∧ o = baseAttrs kw n up dturns rad rho gamma energy nprof nbins dtbin := by
  unfold baseInit
  by_cases hc : (kw.lookup "n_profiles").isSome = true ∨ (kw.lookup "n_bins").isSome = true
  · rw [if_pos hc]
    refine ⟨fun h => (by cases h), fun h => ?_⟩
    rw [lookup_isSome, lookup_isSome] at hc
    exact (hc.elim h.1 h.2.1).elim
  rw [if_neg hc]
  rw [lookup_isSome, lookup_isSome, not_or] at hc
  dsimp only
  rw [limitsOf_eq hnd, setAll_base]
  cases hn : asNum nbins with
  | error e =>
    refine ⟨fun h => (by cases h), ?_⟩
    rintro ⟨_, _, n, up, h, _⟩
    cases h
  | ok n =>
  cases hu : upper kw nbins dtbin with
  | none =>
    refine ⟨fun h => (by cases h), ?_⟩
    rintro ⟨_, _, n, up, _, h, _⟩
    cases h
  | some up =>
  have hmap : ∀ f : K → Dict K, (Except.ok n : M K).map f = .ok (f n) := fun _ => rfl
  rw [hmap, bind_ok, bind_ok, vals_eq hnd _ keys_known, bind_ok, setAll_eq]
  · constructor
    · intro h
      exact ⟨hc.1, hc.2, n, up, rfl, rfl, (Except.ok.inj h).symm⟩
    · rintro ⟨_, _, n', up', hn', hu', rfl⟩
      cases hn'
      cases hu'
      rfl
  · rw [List.map_append, List.map_append, List.mem_append, List.mem_append, List.map_map]
    rintro ((h | h) | h)
    · revert h
      simp
    · exact nbins_not_key h
    · revert h
      simp

/-- the attributes of a new machine, the last one first -/
def attrs (kw : Dict K) (n : K) (up dturns vrf1 rad rho b0 gamma energy nprof nbins dtbin : Val K) : Dict K :=
  [("bunchlimit_up", .none), ("bunchlimit_low", .none), ("fitted_synch_part_x", .none), ("bdot", opt kw "bdot" (.num 0)),
   ("b0", b0), ("vrf2dot", opt kw "vrf2dot" (.num 0)), ("vrf2", opt kw "vrf2" (.num 0)),
   ("vrf1dot", opt kw "vrf1dot" (.num 0)), ("vrf1", vrf1)] ++ baseAttrs kw n up dturns rad rho gamma energy nprof nbins dtbin

theorem keys_not_params : ∀ p ∈ attrKeys, ["dturns", "vrf1", "mean_orbit_rad", "bending_rad", "b0", "trans_gamma", "rest_energy",
    "nprofiles", "nbins", "dtbin", "vat_now"].contains p.2 = false := by decide +kernel

/-- not the name of a parameter -/
def isOpt (k : String) : Bool := not (["dturns", "vrf1", "mean_orbit_rad", "bending_rad", "b0", "trans_gamma", "rest_energy",
    "nprofiles", "nbins", "dtbin", "vat_now"].contains k)

theorem baseAttrs_filter (kw : Dict K) (n : K) (up dturns rad rho gamma energy nprof nbins dtbin : Val K) :
    baseAttrs (kw.filter fun p => isOpt p.1) n up dturns rad rho gamma energy nprof nbins dtbin
      = baseAttrs kw n up dturns rad rho gamma energy nprof nbins dtbin := by
  have hlo : lower (kw.filter fun p => isOpt p.1) = lower kw := by
    unfold lower
    rw [opt_filter kw isOpt (by decide +kernel)]
  have hv : attrKeys.map (fun p => (p.1, opt (kw.filter fun p => isOpt p.1) p.2 (dflt p.2)))
      = attrKeys.map (fun p => (p.1, opt kw p.2 (dflt p.2))) := by
    apply List.map_congr_left
    intro p hp
    rw [opt_filter kw isOpt]
    unfold isOpt
    rw [keys_not_params p hp]
    rfl
  unfold baseAttrs
  rw [hlo, hv]

/-- a machine is made exactly if the arguments can be bound, the number of bins is a number, and the upper limit of the reconstructed
area is given or can be computed -/
theorem machineInit_iff {pos : List (Val K)} {kw : Dict K} (hnd : (kw.map Prod.fst).Nodup) (r : Dict K × Val K) :
    machineInit pos kw = .ok r ↔
      ∃ dturns vrf1 rad rho b0 gamma energy nprof nbins dtbin now n up,
        Bound pos kw dturns vrf1 rad rho b0 gamma energy nprof nbins dtbin now ∧
        "n_profiles" ∉ kw.map Prod.fst ∧ "n_bins" ∉ kw.map Prod.fst ∧ asNum nbins = .ok n ∧ upper kw nbins dtbin = some up ∧
        r = (attrs kw n up dturns vrf1 rad rho b0 gamma energy nprof nbins dtbin, now) := by
  have hrest : (kw.filter fun p => !((machineParams (K := K)).map Prod.fst).contains p.1) = kw.filter fun p => isOpt p.1 := rfl
  have hnd' : ((kw.filter fun p => isOpt p.1).map Prod.fst).Nodup := nodup_filter hnd _
  have hmem : ∀ k, isOpt k = true → (k ∈ (kw.filter fun p => isOpt p.1).map Prod.fst ↔ k ∈ kw.map Prod.fst) := by
    intro k hk
    rw [← lookup_isSome, ← lookup_isSome, lookup_filter kw isOpt hk]
  have hup : ∀ a b, upper (kw.filter fun p => isOpt p.1) a b = upper kw a b := by
    intro a b
    unfold upper
    rw [opt_filter kw isOpt (by decide +kernel)]
  have o1 : ∀ v : Val K, opt (kw.filter fun p => isOpt p.1) "vrf1dot" v = opt kw "vrf1dot" v :=
    fun v => opt_filter kw isOpt (by decide +kernel) v
  have o2 : ∀ v : Val K, opt (kw.filter fun p => isOpt p.1) "vrf2" v = opt kw "vrf2" v :=
    fun v => opt_filter kw isOpt (by decide +kernel) v
  have o3 : ∀ v : Val K, opt (kw.filter fun p => isOpt p.1) "vrf2dot" v = opt kw "vrf2dot" v :=
    fun v => opt_filter kw isOpt (by decide +kernel) v
  have o4 : ∀ v : Val K, opt (kw.filter fun p => isOpt p.1) "bdot" v = opt kw "bdot" v :=
    fun v => opt_filter kw isOpt (by decide +kernel) v
  have hm1 := hmem "n_profiles" (by decide +kernel)
  have hm2 := hmem "n_bins" (by decide +kernel)
  have m1 : (machineOpts (K := K)).lookup "vrf1dot" = some (.num 0) := rfl
  have m2 : (machineOpts (K := K)).lookup "vrf2" = some (.num 0) := rfl
  have m3 : (machineOpts (K := K)).lookup "vrf2dot" = some (.num 0) := rfl
  have m4 : (machineOpts (K := K)).lookup "bdot" = some (.num 0) := rfl
  -- everything after the binding of the arguments
  have htail : ∀ dturns vrf1 rad rho b0 gamma energy nprof nbins dtbin now : Val K,
      (do
        let o ← baseInit dturns rad rho gamma energy nprof nbins dtbin (kw.filter fun p => isOpt p.1)
        let d := processKwargs machineOpts (kw.filter fun p => isOpt p.1)
        let vrf1dot ← lookup d "vrf1dot"
        let vrf2 ← lookup d "vrf2"
        let vrf2dot ← lookup d "vrf2dot"
        let bdot ← lookup d "bdot"
        let o ← setAll o [("vrf1", vrf1), ("vrf1dot", vrf1dot), ("vrf2", vrf2), ("vrf2dot", vrf2dot), ("b0", b0), ("bdot", bdot),
          ("fitted_synch_part_x", .none), ("bunchlimit_low", .none), ("bunchlimit_up", .none)]
        pure (o, now)) = .ok r ↔ ∃ n up, "n_profiles" ∉ kw.map Prod.fst ∧ "n_bins" ∉ kw.map Prod.fst ∧ asNum nbins = .ok n ∧
          upper kw nbins dtbin = some up ∧ r = (attrs kw n up dturns vrf1 rad rho b0 gamma energy nprof nbins dtbin, now) := by
    intro dturns vrf1 rad rho b0 gamma energy nprof nbins dtbin now
    dsimp only
    rw [lookup_process hnd' m1, lookup_process hnd' m2, lookup_process hnd' m3, lookup_process hnd' m4, o1, o2, o3, o4]
    simp only [bind_ok]
    constructor
    · intro h
      obtain ⟨o, ho, h⟩ := bind_inv h
      obtain ⟨c1, c2, n, up, hn, hu, rfl⟩ := (baseInit_iff hnd' dturns rad rho gamma energy nprof nbins dtbin o).mp ho
      rw [hm1] at c1
      rw [hm2] at c2
      rw [hup] at hu
      rw [setAll_eq _ _ (by simp), bind_ok, baseAttrs_filter] at h
      exact ⟨n, up, c1, c2, hn, hu, (Except.ok.inj h).symm⟩
    · rintro ⟨n, up, c1, c2, hn, hu, rfl⟩
      rw [← hm1] at c1
      rw [← hm2] at c2
      rw [← hup] at hu
      rw [(baseInit_iff hnd' dturns rad rho gamma energy nprof nbins dtbin _).mpr ⟨c1, c2, n, up, hn, hu, rfl⟩, bind_ok,
        setAll_eq _ _ (by simp), bind_ok, baseAttrs_filter]
      rfl
  unfold machineInit
  constructor
  · intro h
    obtain ⟨b, hb, h⟩ := bind_inv h
    obtain ⟨dturns, vrf1, rad, rho, b0, gamma, energy, nprof, nbins, dtbin, now, hB, rfl⟩ := (bindArgs_iff pos kw b).mp hb
    rw [hrest] at h
    simp only [lookup_cons, lookup, String.reduceEq, if_true, if_false, bind_ok] at h
    obtain ⟨n, up, c1, c2, hn, hu, hr⟩ := (htail dturns vrf1 rad rho b0 gamma energy nprof nbins dtbin now).mp h
    exact ⟨dturns, vrf1, rad, rho, b0, gamma, energy, nprof, nbins, dtbin, now, n, up, hB, c1, c2, hn, hu, hr⟩
  · rintro ⟨dturns, vrf1, rad, rho, b0, gamma, energy, nprof, nbins, dtbin, now, n, up, hB, c1, c2, hn, hu, hr⟩
    rw [(bindArgs_iff pos kw _).mpr ⟨dturns, vrf1, rad, rho, b0, gamma, energy, nprof, nbins, dtbin, now, hB, rfl⟩, bind_ok, hrest]
    simp only [lookup_cons, lookup, String.reduceEq, if_true, if_false, bind_ok]
    exact (htail dturns vrf1 rad rho b0 gamma energy nprof nbins dtbin now).mpr ⟨n, up, c1, c2, hn, hu, hr⟩

theorem given_eq (pos : List (Val K)) (kw : Dict K) (k : String) : given pos kw k = argument pos kw k := rfl

theorem keys_subset : ∀ p ∈ attrKeys, p.2 ∈ known := by decide +kernel

theorem attrs_congr {kw kw' : Dict K} (h : ∀ k ∈ known, isOpt k = true → kw.lookup k = kw'.lookup k) (n : K)
    (up dturns vrf1 rad rho b0 gamma energy nprof nbins dtbin : Val K) :
    attrs kw n up dturns vrf1 rad rho b0 gamma energy nprof nbins dtbin
      = attrs kw' n up dturns vrf1 rad rho b0 gamma energy nprof nbins dtbin := by
  have ho : ∀ k ∈ known, isOpt k = true → ∀ v : Val K, opt kw k v = opt kw' k v := by
    intro k hk hi v
    unfold opt
    rw [h k hk hi]
  have hlo : lower kw = lower kw' := by
    unfold lower
    rw [ho "min_dt" (by decide +kernel) (by decide +kernel)]
  have hv : attrKeys.map (fun p => (p.1, opt kw p.2 (dflt p.2))) = attrKeys.map (fun p => (p.1, opt kw' p.2 (dflt p.2))) := by
    apply List.map_congr_left
    intro p hp
    rw [ho p.2 (keys_subset p hp)]
    unfold isOpt
    rw [keys_not_params p hp]
    rfl
  unfold attrs baseAttrs
  rw [hlo, hv, ho "bdot" (by decide +kernel) (by decide +kernel), ho "vrf2dot" (by decide +kernel) (by decide +kernel),
    ho "vrf2" (by decide +kernel) (by decide +kernel), ho "vrf1dot" (by decide +kernel) (by decide +kernel)]

theorem upper_congr {kw kw' : Dict K} (h : ∀ k ∈ known, isOpt k = true → kw.lookup k = kw'.lookup k) (a b : Val K) :
    upper kw a b = upper kw' a b := by
  unfold upper opt
  rw [h "max_dt" (by decide +kernel) (by decide +kernel)]

/-- calls that give the same values to the known names make the same machine -/
theorem machineInit_mono {pos pos' : List (Val K)} {kw kw' : Dict K} (hnd : (kw.map Prod.fst).Nodup) (hnd' : (kw'.map Prod.fst).Nodup)
    (few : pos.length ≤ 11 → pos'.length ≤ 11)
    (once : (∀ k ∈ kw.map Prod.fst, k ∉ (parameters.zip pos).map Prod.fst) → ∀ k ∈ kw'.map Prod.fst, k ∉ (parameters.zip pos').map Prod.fst)
    (harg : ∀ k ∈ parameters, argument pos kw k = argument pos' kw' k)
    (hopt : ∀ k ∈ known, isOpt k = true → kw.lookup k = kw'.lookup k) {r : Dict K × Val K} (h : machineInit pos kw = .ok r) :
    machineInit pos' kw' = .ok r := by
  obtain ⟨dturns, vrf1, rad, rho, b0, gamma, energy, nprof, nbins, dtbin, now, n, up, hB, c1, c2, hn, hu, rfl⟩ :=
    (machineInit_iff hnd r).mp h
  refine (machineInit_iff hnd' _).mpr ⟨dturns, vrf1, rad, rho, b0, gamma, energy, nprof, nbins, dtbin, now, n, up, ?_, ?_, ?_, hn, ?_, ?_⟩
  · have e : ∀ k ∈ parameters, given pos' kw' k = given pos kw k := fun k hk => (harg k hk).symm
    exact
      { few := few hB.few
        once := once hB.once
        dturns := (e _ (by decide +kernel)).trans hB.dturns
        vrf1 := (e _ (by decide +kernel)).trans hB.vrf1
        rad := (e _ (by decide +kernel)).trans hB.rad
        rho := (e _ (by decide +kernel)).trans hB.rho
        b0 := (e _ (by decide +kernel)).trans hB.b0
        gamma := (e _ (by decide +kernel)).trans hB.gamma
        energy := (e _ (by decide +kernel)).trans hB.energy
        nprof := (e _ (by decide +kernel)).trans hB.nprof
        nbins := (e _ (by decide +kernel)).trans hB.nbins
        dtbin := (e _ (by decide +kernel)).trans hB.dtbin
        now := by rw [e _ (by decide +kernel)]; exact hB.now }
  · rw [← lookup_isSome, ← hopt "n_profiles" (by decide +kernel) (by decide +kernel), lookup_isSome]
    exact c1
  · rw [← lookup_isSome, ← hopt "n_bins" (by decide +kernel) (by decide +kernel), lookup_isSome]
    exact c2
  · rw [← upper_congr hopt]
    exact hu
  · rw [attrs_congr hopt]

/-- what is read from a new machine -/
structure Reads (kw : Dict K) (n : K) (up dturns vrf1 rad rho b0 gamma energy nprof nbins dtbin : Val K) (o : Dict K) : Prop where
  required : ∀ p ∈ requiredAttrs.zip [dturns, vrf1, rad, rho, b0, gamma, energy, nprof, nbins, dtbin], getattr o p.1.1 = .ok p.2
  optional : ∀ e ∈ optionalAttrs, getattr o e.1 = .ok (opt kw e.2.1 e.2.2)
  min_dt : getattr o "min_dt" = .ok (lower kw)
  max_dt : getattr o "max_dt" = .ok up
  synch_part_y : getattr o "synch_part_y" = .ok (.num (n / 2))
  later : ∀ k ∈ ["dEbin", "fitted_synch_part_x", "bunchlimit_low", "bunchlimit_up"], getattr o k = .ok .none

theorem reads_attrs (kw : Dict K) (n : K) (up dturns vrf1 rad rho b0 gamma energy nprof nbins dtbin : Val K) :
    Reads kw n up dturns vrf1 rad rho b0 gamma energy nprof nbins dtbin
      (attrs kw n up dturns vrf1 rad rho b0 gamma energy nprof nbins dtbin) := by
  have he : attrKeys.map (fun p => (p.1, opt kw p.2 (dflt p.2))) =
      [("demax", opt kw "demax" (.num (-1000000))), ("phi12", opt kw "phi12" (.num 0)), ("h_ratio", opt kw "h_ratio" (.num 1)),
       ("h_num", opt kw "h_num" (.int 1)), ("q", opt kw "charge" (.int 1)), ("g_coupling", opt kw "g_coupling" .none),
       ("zwall_over_n", opt kw "zwall_over_n" .none), ("synch_part_x", opt kw "synch_part_x" (.int (-1))),
       ("self_field_flag", opt kw "self_field_flag" (.flag false)), ("full_pp_flag", opt kw "full_pp_flag" (.flag false)),
       ("machine_ref_frame", opt kw "machine_ref_frame" (.int 0)), ("beam_ref_frame", opt kw "beam_ref_frame" (.int 0)),
       ("pickup_sensitivity", opt kw "pickup_sensitivity" .none), ("snpt", opt kw "snpt" (.int 4)),
       ("niter", opt kw "niter" (.int 20)), ("filmstart", opt kw "filmstart" (.int 0)), ("filmstop", opt kw "filmstop" (.int 1)),
       ("filmstep", opt kw "filmstep" (.int 1)), ("output_dir", opt kw "output_dir" .none)] := by
    unfold attrKeys dflt baseDefaults
    simp only [List.map_cons, List.map_nil, lookup_cons, String.reduceEq, if_true, if_false, Option.getD_some]
  unfold attrs baseAttrs
  rw [he]
  simp only [List.reverse_cons, List.reverse_nil, List.nil_append, List.cons_append]
  constructor
  · unfold requiredAttrs
    simp only [List.zip_cons_cons, List.zip_nil_left, List.mem_cons, List.not_mem_nil, or_false, forall_eq_or_imp, forall_eq,
      getattr, lookup, String.reduceEq, if_true, if_false, lookup_cons, and_self]
  · unfold optionalAttrs
    simp only [List.mem_cons, List.not_mem_nil, or_false, forall_eq_or_imp, forall_eq,
      getattr, lookup, String.reduceEq, if_true, if_false, lookup_cons, and_self]
  · simp only [getattr, lookup, String.reduceEq, if_true, if_false, lookup_cons]
  · simp only [getattr, lookup, String.reduceEq, if_true, if_false, lookup_cons]
  · simp only [getattr, lookup, String.reduceEq, if_true, if_false, lookup_cons]
  · simp only [List.mem_cons, List.not_mem_nil, or_false, forall_eq_or_imp, forall_eq,
      getattr, lookup, String.reduceEq, if_true, if_false, lookup_cons, and_self]

end
end Verif.MObj
