import Verif.Lemmas.ProgramsObj
import Verif.Props.Programs

/-!
# C111: making a machine from programs
-/

set_option linter.unusedSectionVars false

namespace Verif.Props
open Verif.Mch Verif.Asrt Verif.MObj

section
variable {K : Type} [Field K] [LinearOrder K] [FloorRing K]

/-- the attributes after the constructor, before the arrays are computed -/
structure Fresh (L : MathLib K) (pos : List (Val K)) (kw : Dict K) (o : Dict K) (now : Val K) : Prop where
  required : ∀ e ∈ PMObj.requiredAttrs, ∃ v, PMObj.argument pos kw e.2 = some v ∧ getattr o e.1 = .ok v
  optional : ∀ e ∈ PMObj.optionalAttrs, getattr o e.1 = .ok ((kw.lookup e.2.1).getD e.2.2)
  minGiven : ∀ v, v ≠ .none → kw.lookup "min_dt" = some v → getattr o "min_dt" = .ok v
  maxGiven : ∀ v, v ≠ .none → kw.lookup "max_dt" = some v → getattr o "max_dt" = .ok v
  minDefault : (kw.lookup "min_dt").getD .none = .none → getattr o "min_dt" = .ok (.num 0)
  maxDefault : (kw.lookup "max_dt").getD .none = .none → ∃ n w, PMObj.argument pos kw "nbins" = some n ∧
    PMObj.argument pos kw "dtbin" = some w ∧ getattr o "max_dt" = mulV n w
  centre : ∃ v n, PMObj.argument pos kw "nbins" = some v ∧ asNum v = .ok n ∧ getattr o "synch_part_y" = .ok (.num (n / 2))
  ring : ∃ v r, PMObj.argument pos kw "mean_orbit_rad" = some v ∧ asNum v = .ok r ∧
    getattr o "circumference" = .ok (.num (2 * L.pi * r))
  phase : ((kw.lookup "phi12").isSome = true ∧ (PMObj.argument pos kw "phase_function").getD .none = .none ∧
      getattr o "process_phase" = .ok (.int 0)) ∨
    (kw.lookup "phi12" = none ∧ (PMObj.argument pos kw "phase_function").getD .none ≠ .none ∧
      getattr o "process_phase" = .ok (.int 1) ∧
      getattr o "phase_raw" = .ok ((PMObj.argument pos kw "phase_function").getD .none)) ∨
    (kw.lookup "phi12" = none ∧ (PMObj.argument pos kw "phase_function").getD .none = .none ∧ getattr o "process_phase" = .ok (.int 2))
  now : (PMObj.argument pos kw "vat_now").getD (.flag true) = now
  count : ∃ v n, PMObj.argument pos kw "harmonics" = some v ∧ PMObj.lenOf v = .ok n ∧ (n = 1 ∨ n = 2)

theorem fresh_of_init {L : MathLib K} {pos : List (Val K)} {kw : Dict K} (hnd : (kw.map Prod.fst).Nodup) {o : Dict K} {now : Val K}
    (h : PMObj.programsInit L pos kw = .ok (o, now)) : Fresh L pos kw o now := by
  obtain ⟨dturns, voltage, momentum, harmonics, rad, rho, gamma, energy, nprof, nbins, dtbin, tref, phase, n, up, len, r, ph,
    a1, a2, a3, a4, a5, a6, a7, a8, a9, a10, a11, a12, hphase, hnow, hlen, hcount, hn, hr, hu, hph, ho⟩ := (PMObj.made hnd h).ex
  have hu' : upper kw nbins dtbin = some up := by
    rw [← hu]
    unfold upper
    rw [opt_filter kw PMObj.isKw (by decide +kernel)]
  have hR := reads_attrs kw n up dturns .none rad rho .none gamma energy nprof nbins dtbin
  have hnames : ∀ k, k ∉ PMObj.programsOnly → k ∉ (([("voltage_raw", voltage), ("momentum_raw", momentum), ("harmonics", harmonics)] ++ ph ++
      [("circumference", Val.num (2 * L.pi * r)), ("t_ref", tref), ("n_turns", .none), ("i0", .none)]).map Prod.fst) := by
    intro k hk
    unfold PMObj.programsOnly at hk
    simp only [List.mem_cons, List.not_mem_nil, or_false, not_or] at hk
    obtain ⟨k1, k2, k3, k4, k5, k6, k7, k8, k9⟩ := hk
    rcases PMObj.phaseAttrs_cases hph with ⟨_, _, rfl⟩ | ⟨_, _, rfl⟩ | ⟨_, _, rfl⟩ <;>
    simp only [List.cons_append, List.nil_append, List.map_cons, List.map_nil, List.mem_cons, List.not_mem_nil, or_false, k1, k2, k3, k4,
      k5, k6, k7, k8, k9, not_false_eq_true]
  have hold : ∀ k, k ∉ PMObj.programsOnly → k ∉ PMObj.machineOnly →
      getattr o k = getattr (attrs kw n up dturns .none rad rho .none gamma energy nprof nbins dtbin) k := by
    intro k hk hm
    rw [ho, PMObj.getattr_old _ _ (hnames k hk) (hnames _ (by decide +kernel)), PMObj.getattr_base _ _ _ _ _ _ _ _ _ _ _ _ _ hm]
  have hnew : ∀ k v, k ≠ "nbins" → (([("voltage_raw", voltage), ("momentum_raw", momentum), ("harmonics", harmonics)] ++ ph ++
      [("circumference", Val.num (2 * L.pi * r)), ("t_ref", tref), ("n_turns", .none), ("i0", .none)]).reverse).lookup k = some v →
      getattr o k = .ok v := by
    intro k v hk hl
    rw [ho]
    exact PMObj.getattr_new _ _ hk hl
  have hgiven : ∀ b, (kw.lookup "phi12").isSome = b → (b = false → kw.lookup "phi12" = none) := by
    intro b hb hf
    rw [hf] at hb
    rw [← Option.not_isSome_iff_eq_none, hb]
    exact Bool.false_ne_true
  constructor
  · have hq := hR.required
    unfold MObj.requiredAttrs at hq
    unfold PMObj.requiredAttrs
    simp only [List.zip_cons_cons, List.zip_nil_left, List.mem_cons, List.not_mem_nil, or_false, forall_eq_or_imp, forall_eq]
      at hq ⊢
    obtain ⟨q1, q2, q3, q4, q5, q6, q7, q8, q9, q10⟩ := hq
    refine ⟨⟨_, a1, ?_⟩, ⟨_, a5, ?_⟩, ⟨_, a6, ?_⟩, ⟨_, a7, ?_⟩, ⟨_, a8, ?_⟩, ⟨_, a9, ?_⟩, ⟨_, a10, ?_⟩, ⟨_, a11, ?_⟩, ⟨_, a2, ?_⟩,
      ⟨_, a3, ?_⟩, ⟨_, a4, ?_⟩, ⟨_, a12, ?_⟩⟩
    · rw [hold _ (by decide +kernel) (by decide +kernel)]; exact q1
    · rw [hold _ (by decide +kernel) (by decide +kernel)]; exact q3
    · rw [hold _ (by decide +kernel) (by decide +kernel)]; exact q4
    · rw [hold _ (by decide +kernel) (by decide +kernel)]; exact q6
    · rw [hold _ (by decide +kernel) (by decide +kernel)]; exact q7
    · rw [hold _ (by decide +kernel) (by decide +kernel)]; exact q8
    · rw [hold _ (by decide +kernel) (by decide +kernel)]; exact q9
    · rw [hold _ (by decide +kernel) (by decide +kernel)]; exact q10
    all_goals
      apply hnew _ _ (by decide)
      rcases PMObj.phaseAttrs_cases hph with ⟨_, _, rfl⟩ | ⟨_, _, rfl⟩ | ⟨_, _, rfl⟩ <;>
      simp only [List.cons_append, List.nil_append, List.reverse_cons, List.reverse_nil, lookup_cons, String.reduceEq, if_true, if_false]
  · have hsub : ∀ e ∈ PMObj.optionalAttrs (K := K), e ∈ MObj.optionalAttrs (K := K) ∧ e.1 ∉ PMObj.programsOnly ∧ e.1 ∉ PMObj.machineOnly := by
      unfold PMObj.optionalAttrs MObj.optionalAttrs PMObj.programsOnly PMObj.machineOnly
      simp only [List.mem_cons, List.not_mem_nil, or_false, forall_eq_or_imp, forall_eq, true_or, or_true, String.reduceEq,
        not_false_eq_true, and_self]
    intro e he
    obtain ⟨h1, h2, h3⟩ := hsub e he
    rw [hold _ h2 h3]
    exact hR.optional e h1
  · intro v hv hk
    rw [hold _ (by decide +kernel) (by decide +kernel), hR.min_dt]
    unfold lower opt
    rw [hk]
    cases v <;> first | rfl | exact (hv rfl).elim
  · intro v hv hk
    rw [hold _ (by decide +kernel) (by decide +kernel), hR.max_dt]
    unfold upper opt at hu'
    rw [hk] at hu'
    cases v <;> first | exact (hv rfl).elim | (cases hu'; rfl)
  · intro hk
    rw [hold _ (by decide +kernel) (by decide +kernel), hR.min_dt]
    unfold lower opt
    rw [hk]
  · intro hk
    refine ⟨nbins, dtbin, a10, a11, ?_⟩
    rw [hold _ (by decide +kernel) (by decide +kernel), hR.max_dt]
    unfold upper opt at hu'
    rw [hk] at hu'
    cases hm : mulV nbins dtbin with
    | error e =>
      rw [hm] at hu'
      cases hu'
    | ok u =>
      rw [hm] at hu'
      cases hu'
      rfl
  · refine ⟨nbins, n, a10, hn, ?_⟩
    rw [hold _ (by decide +kernel) (by decide +kernel), hR.synch_part_y]
  · refine ⟨rad, r, a5, hr, ?_⟩
    apply hnew _ _ (by decide)
    simp only [List.reverse_append, List.cons_append, List.nil_append, List.reverse_cons, List.reverse_nil, lookup_cons, String.reduceEq,
      if_true, if_false]
  · rw [hphase]
    rcases PMObj.phaseAttrs_cases hph with ⟨hg, hv, rfl⟩ | ⟨hg, hv, rfl⟩ | ⟨hg, hv, rfl⟩
    · refine Or.inl ⟨hg, hv, hnew _ _ (by decide) ?_⟩
      simp only [List.cons_append, List.nil_append, List.reverse_cons, List.reverse_nil, lookup_cons, String.reduceEq, if_true, if_false]
    · refine Or.inr (Or.inl ⟨hgiven _ hg rfl, hv, hnew _ _ (by decide) ?_, hnew _ _ (by decide) ?_⟩) <;>
      simp only [List.cons_append, List.nil_append, List.reverse_cons, List.reverse_nil, lookup_cons, String.reduceEq, if_true, if_false]
    · refine Or.inr (Or.inr ⟨hgiven _ hg rfl, hv, hnew _ _ (by decide) ?_⟩)
      simp only [List.cons_append, List.nil_append, List.reverse_cons, List.reverse_nil, lookup_cons, String.reduceEq, if_true, if_false]
  · exact hnow
  · exact ⟨harmonics, len, a4, hlen, hcount⟩

theorem isNum_of {v : Val K} {x : K} (h : asNum v = .ok x) : PMObj.IsNum v x := by
  cases v <;> cases h
  · exact Or.inl rfl
  · exact Or.inr ⟨_, rfl, rfl⟩

theorem asInt_inv {v : Val K} {n : Int} (h : asInt v = .ok n) : v = .int n := by
  cases v <;> cases h
  rfl

theorem asList_inv {v : Val K} {l : List K} (h : PMObj.asList v = .ok l) : v = .list l := by
  cases v <;> cases h
  rfl

theorem rowOf_inv {v : Val K} {i : Nat} {r : List K} (h : PMObj.rowOf v i = .ok r) : ∃ rows, v = .table rows ∧ rows[i]? = some r := by
  cases v with
  | table rows =>
    refine ⟨rows, rfl, ?_⟩
    unfold PMObj.rowOf at h
    dsimp only at h
    cases hr : rows[i]? with
    | none => rw [hr] at h; cases h
    | some r' => rw [hr] at h; cases h; rfl
  | _ => cases h

theorem rows_of {v : Val K} {two : Prop} [Decidable two] {t p1 p2 : List K} (h0 : PMObj.rowOf v 0 = .ok t) (h1 : PMObj.rowOf v 1 = .ok p1)
    (h2 : (if two then PMObj.rowOf v 2 else .ok []) = .ok p2) : PMObj.Rows (some v) two t p1 p2 := by
  obtain ⟨rows, rfl, e0⟩ := rowOf_inv h0
  obtain ⟨_, hv, e1⟩ := rowOf_inv h1
  cases hv
  match rows, e0, e1, h2 with
  | a :: b :: rest, e0, e1, h2 =>
    cases e0
    cases e1
    refine ⟨rest, rfl, fun ht => ?_, fun ht => ?_⟩
    · rw [if_pos ht] at h2
      obtain ⟨_, hv, e2⟩ := rowOf_inv h2
      cases hv
      match rest, e2 with
      | c :: rest', e2 =>
        cases e2
        exact ⟨rest', rfl⟩
    · rw [if_neg ht] at h2
      cases h2
      rfl

/-- what the computation of the arrays gets is what the call said -/
theorem described {L : MathLib K} {pos : List (Val K)} {kw : Dict K} {o : Dict K} {now : Val K} (hF : Fresh L pos kw o now)
    {a : Prog.PArgs K} (h : PMObj.programsArgs o = .ok a) : PMObj.Described pos kw a := by
  have hreq := hF.required
  unfold PMObj.requiredAttrs at hreq
  simp only [List.mem_cons, List.not_mem_nil, or_false, forall_eq_or_imp, forall_eq] at hreq
  obtain ⟨⟨v1, a1, r1⟩, ⟨v2, a2, r2⟩, ⟨v3, a3, r3⟩, ⟨v4, a4, r4⟩, ⟨v5, a5, r5⟩, ⟨v6, a6, r6⟩, _, _, ⟨v9, a9, r9⟩, ⟨v10, a10, r10⟩,
    ⟨v11, a11, r11⟩, ⟨v12, a12, r12⟩⟩ := hreq
  have hopt : ∀ e, e ∈ PMObj.optionalAttrs (K := K) → getattr o e.1 = .ok ((kw.lookup e.2.1).getD e.2.2) := hF.optional
  have ofr := hopt ("machine_ref_frame", "machine_ref_frame", .int 0) (by unfold PMObj.optionalAttrs; simp)
  have ohn := hopt ("h_num", "h_num", .int 1) (by unfold PMObj.optionalAttrs; simp)
  have oq := hopt ("q", "charge", .int 1) (by unfold PMObj.optionalAttrs; simp)
  have oph := hopt ("phi12", "phi12", .num 0) (by unfold PMObj.optionalAttrs; simp)
  dsimp only at ofr ohn oq oph
  unfold PMObj.programsArgs at h
  rw [r1, r2, r3, r4, r5, r6, r9, r10, r11, r12, ofr, ohn, oq] at h
  simp only [bind_ok] at h
  obtain ⟨dturns, h1, h⟩ := bind_inv h
  obtain ⟨nprofiles, h2, h⟩ := bind_inv h
  obtain ⟨frame, h3, h⟩ := bind_inv h
  obtain ⟨rad, h4, h⟩ := bind_inv h
  obtain ⟨rho, h5, h⟩ := bind_inv h
  obtain ⟨gamma, h6, h⟩ := bind_inv h
  obtain ⟨energy, h7, h⟩ := bind_inv h
  obtain ⟨hNum, h8, h⟩ := bind_inv h
  obtain ⟨q, h9, h⟩ := bind_inv h
  obtain ⟨mt, h10, h⟩ := bind_inv h
  obtain ⟨mv, h11, h⟩ := bind_inv h
  obtain ⟨harm, h12, h⟩ := bind_inv h
  obtain ⟨vt, h13, h⟩ := bind_inv h
  obtain ⟨w1, h14, h⟩ := bind_inv h
  obtain ⟨w2, h15, h⟩ := bind_inv h
  obtain ⟨phase, h16, h⟩ := bind_inv h
  obtain ⟨tref, h17, h⟩ := bind_inv h
  cases h
  rw [asInt_inv h1] at a1
  rw [asInt_inv h2] at a6
  rw [asList_inv h12] at a11
  have hcount : harm.length = 1 ∨ harm.length = 2 := by
    obtain ⟨v, n, hv, hl, hc⟩ := hF.count
    rw [a11] at hv
    cases hv
    cases hl
    exact hc
  have hph : PMObj.Phases pos kw (harm.length = 2) phase := by
    unfold PMObj.phaseArgOf at h16
    rcases hF.phase with ⟨hk, hn, hp⟩ | ⟨hk, hn, hp, hraw⟩ | ⟨hk, hn, hp⟩
    · rw [hp, bind_ok, oph] at h16
      simp only [bind_ok] at h16
      obtain ⟨v, hv⟩ := Option.isSome_iff_exists.mp hk
      rw [hv] at h16
      cases v with
      | num x => cases h16; exact .number hv (Or.inl rfl)
      | int n => cases h16; exact .number hv (Or.inr ⟨n, rfl, rfl⟩)
      | list l => cases h16; exact .array hv
      | table rows => cases h16; exact .table hv
      | none => cases h16
      | flag b => cases h16
      | text t => cases h16
    · rw [hp, bind_ok, hraw] at h16
      simp only [bind_ok] at h16
      obtain ⟨t, ht, h16⟩ := bind_inv h16
      obtain ⟨p1, hp1, h16⟩ := bind_inv h16
      obtain ⟨p2, hp2, h16⟩ := bind_inv h16
      cases h16
      refine .program hk ?_
      have hR := rows_of ht hp1 (by simpa only [decide_eq_true_eq] using hp2)
      cases hpf : PMObj.argument pos kw "phase_function" with
      | none => rw [hpf] at hn; exact (hn rfl).elim
      | some v =>
        rw [hpf] at hR
        exact hR
    · rw [hp, bind_ok] at h16
      cases h16
      exact .missing hk hn
  refine ⟨a1, a6, asInt_inv h3, ⟨_, a2, isNum_of h4⟩, ⟨_, a3, isNum_of h5⟩, ⟨_, a4, isNum_of h6⟩, ⟨_, a5, isNum_of h7⟩, isNum_of h8,
    isNum_of h9, ?_, ?_, a11, hcount, hph, ?_⟩
  · rw [a10]
    exact rows_of h10 h11 (by rw [if_neg not_false])
  · rw [a9]
    exact rows_of h13 h14 (by simpa only [decide_eq_true_eq] using h15)
  · cases v12 with
    | none => cases h17; exact Or.inl ⟨a12, rfl⟩
    | num x => cases h17; exact Or.inr ⟨_, x, a12, Or.inl rfl, rfl⟩
    | int n => cases h17; exact Or.inr ⟨_, _, a12, Or.inr ⟨n, rfl, rfl⟩, rfl⟩
    | flag b => cases h17
    | text t => cases h17
    | list l => cases h17
    | table rows => cases h17

theorem new_inv {L : MathLib K} {pos : List (Val K)} {kw : Dict K} {fuel : Nat} {o : Dict K} {arrays : Option (Prog.POut K)}
    (h : PMObj.newProgramsMachine L pos kw fuel = .ok (o, arrays)) :
    ∃ o1 now, PMObj.programsInit L pos kw = .ok (o1, now) ∧
      (if truthy now then ∃ a out, PMObj.programsArgs o1 = .ok a ∧ Prog.valuesAtTurns L a fuel = .ok out ∧ arrays = some out ∧
        o = (PMObj.turnAttrs a out).reverse ++ o1 else o = o1 ∧ arrays = none) := by
  unfold PMObj.newProgramsMachine at h
  obtain ⟨⟨o1, now⟩, hi, h⟩ := bind_inv h
  dsimp only at h
  refine ⟨o1, now, hi, ?_⟩
  by_cases ht : truthy now = true
  · rw [if_pos ht] at h ⊢
    obtain ⟨a, ha, h⟩ := bind_inv h
    obtain ⟨out, hout, h⟩ := bind_inv h
    obtain ⟨o2, ho2, h⟩ := bind_inv h
    rw [setAll_eq _ _ (by unfold PMObj.turnAttrs; simp)] at ho2
    cases ho2
    cases h
    exact ⟨a, out, ha, hout, rfl, rfl⟩
  · rw [if_neg ht] at h ⊢
    cases h
    exact ⟨rfl, rfl⟩

/-- **C111**, what the arguments mean: every attribute of the new machine has the value given for it, by position or by keyword, or
its documented default; the limits of the reconstructed area are 0 and `nbins * dtbin` unless they are given; the circumference is that
of the mean orbit; the arrays are those of `values_at_turns` for exactly the programs and values given in the call, unless `vat_now` is
false.  `h_ratio` and `phi12` are then replaced by the values that belong to the programs. -/
theorem C111_attributes {L : MathLib K} {pos : List (Val K)} {kw : Dict K} (hnd : (kw.map Prod.fst).Nodup) {fuel : Nat} {o : Dict K}
    {arrays : Option (Prog.POut K)} (h : PMObj.newProgramsMachine L pos kw fuel = .ok (o, arrays)) :
    (∀ e ∈ PMObj.requiredAttrs, ∃ v, PMObj.argument pos kw e.2 = some v ∧ getattr o e.1 = .ok v) ∧
    (∀ e ∈ PMObj.optionalAttrs, e.1 ≠ "phi12" → e.1 ≠ "h_ratio" → getattr o e.1 = .ok ((kw.lookup e.2.1).getD e.2.2)) ∧
    (∀ v, v ≠ .none → (kw.lookup "min_dt" = some v → getattr o "min_dt" = .ok v) ∧
      (kw.lookup "max_dt" = some v → getattr o "max_dt" = .ok v)) ∧
    ((kw.lookup "min_dt").getD .none = .none → getattr o "min_dt" = .ok (.num 0)) ∧
    ((kw.lookup "max_dt").getD .none = .none → ∃ n w, PMObj.argument pos kw "nbins" = some n ∧ PMObj.argument pos kw "dtbin" = some w ∧
      getattr o "max_dt" = mulV n w) ∧
    (∃ v n, PMObj.argument pos kw "nbins" = some v ∧ asNum v = .ok n ∧ getattr o "synch_part_y" = .ok (.num (n / 2))) ∧
    (∃ v r, PMObj.argument pos kw "mean_orbit_rad" = some v ∧ asNum v = .ok r ∧
      getattr o "circumference" = .ok (.num (2 * L.pi * r))) ∧
    (if truthy ((PMObj.argument pos kw "vat_now").getD (.flag true)) then
      ∃ a out, PMObj.Described pos kw a ∧ Prog.valuesAtTurns L a fuel = .ok out ∧ arrays = some out ∧
        getattr o "i0" = .ok (.int (a.machineRefFrame * a.dturns)) ∧ getattr o "h_ratio" = .ok (.num out.hRatio) ∧
        getattr o "n_turns" = .ok (.int out.vrf1AtTurn.length) ∧
        getattr o "phi12" = .ok (out.phi12.elim .none .list)
    else arrays = none ∧ getattr o "phi12" = .ok ((kw.lookup "phi12").getD (.num 0)) ∧
      getattr o "h_ratio" = .ok ((kw.lookup "h_ratio").getD (.num 1))) := by
  obtain ⟨o1, now, hi, hr⟩ := new_inv h
  have hF := fresh_of_init hnd hi
  have hold : ∀ k, k ∉ ["i0", "h_ratio", "n_turns", "phi12"] → getattr o k = getattr o1 k := by
    intro k hk
    by_cases ht : truthy now = true
    · rw [if_pos ht] at hr
      obtain ⟨a, out, _, _, _, rfl⟩ := hr
      exact PMObj.getattr_old _ _ (by unfold PMObj.turnAttrs; exact hk) (by unfold PMObj.turnAttrs; simp)
    · rw [if_neg ht] at hr
      rw [hr.1]
  have hreq : ∀ e ∈ PMObj.requiredAttrs, e.1 ∉ ["i0", "h_ratio", "n_turns", "phi12"] := by decide +kernel
  have hopt : ∀ e ∈ PMObj.optionalAttrs (K := K), e.1 ≠ "phi12" → e.1 ≠ "h_ratio" → e.1 ∉ ["i0", "h_ratio", "n_turns", "phi12"] := by
    unfold PMObj.optionalAttrs
    simp only [List.mem_cons, List.not_mem_nil, or_false, forall_eq_or_imp, forall_eq, String.reduceEq, not_false_eq_true, ne_eq,
      implies_true, or_self, not_true_eq_false, false_imp_iff, and_self]
  refine ⟨?_, ?_, ?_, ?_, ?_, ?_, ?_, ?_⟩
  · intro e he
    rw [hold _ (hreq e he)]
    exact hF.required e he
  · intro e he h1 h2
    rw [hold _ (hopt e he h1 h2)]
    exact hF.optional e he
  · intro v hv
    rw [hold _ (by decide +kernel), hold _ (by decide +kernel)]
    exact ⟨hF.minGiven v hv, hF.maxGiven v hv⟩
  · rw [hold _ (by decide +kernel)]
    exact hF.minDefault
  · rw [hold _ (by decide +kernel)]
    exact hF.maxDefault
  · rw [hold _ (by decide +kernel)]
    exact hF.centre
  · rw [hold _ (by decide +kernel)]
    exact hF.ring
  · rw [hF.now]
    by_cases ht : truthy now = true
    · rw [if_pos ht] at hr ⊢
      obtain ⟨a, out, ha, hout, harr, rfl⟩ := hr
      refine ⟨a, out, described hF ha, hout, harr, ?_, ?_, ?_, ?_⟩
      all_goals
        refine PMObj.getattr_new _ _ (by decide) ?_
        unfold PMObj.turnAttrs
        simp only [List.cons_append, List.nil_append, List.reverse_cons, List.reverse_nil, lookup_cons, String.reduceEq, if_true, if_false]
      cases out.phi12 <;> rfl
    · rw [if_neg ht] at hr ⊢
      obtain ⟨rfl, harr⟩ := hr
      refine ⟨harr, hF.optional ("phi12", "phi12", .num 0) ?_, hF.optional ("h_ratio", "h_ratio", .num 1) ?_⟩ <;>
      unfold PMObj.optionalAttrs <;> simp

/-- **C111**, which calls are refused: those with too many positions, a parameter given twice or missing, another number of harmonics
than 1 or 2, or both kinds of phases. -/
theorem C111_refused {L : MathLib K} {pos : List (Val K)} {kw : Dict K} (hnd : (kw.map Prod.fst).Nodup) {fuel : Nat}
    {r : Dict K × Option (Prog.POut K)} (h : PMObj.newProgramsMachine L pos kw fuel = .ok r) :
    pos.length ≤ 14 ∧ (∀ k ∈ kw.map Prod.fst, k ∉ (PMObj.parameters.zip pos).map Prod.fst) ∧
    (∀ e ∈ PMObj.requiredAttrs, (PMObj.argument pos kw e.2).isSome = true) ∧
    (∃ v n, PMObj.argument pos kw "harmonics" = some v ∧ PMObj.lenOf v = .ok n ∧ (n = 1 ∨ n = 2)) ∧
    ("phi12" ∉ kw.map Prod.fst ∨ (PMObj.argument pos kw "phase_function").getD .none = .none) := by
  obtain ⟨o, arrays⟩ := r
  obtain ⟨o1, now, hi, -⟩ := new_inv h
  have hF := fresh_of_init hnd hi
  refine ⟨?_, ?_, fun e he => ?_, hF.count, ?_⟩
  · unfold PMObj.programsInit at hi
    obtain ⟨⟨b, rest⟩, hb, -⟩ := bind_inv hi
    unfold bindArgs at hb
    dsimp only at hb
    split_ifs at hb with h1 h2
    exact not_lt.mp h1
  · unfold PMObj.programsInit at hi
    obtain ⟨⟨b, rest⟩, hb, -⟩ := bind_inv hi
    unfold bindArgs at hb
    dsimp only at hb
    split_ifs at hb with h1 h2
    intro k hk hm
    apply h2
    obtain ⟨p, hp, rfl⟩ := List.mem_map.mp hk
    rw [List.any_eq_true]
    exact ⟨p, hp, lookup_isSome.mpr hm⟩
  · obtain ⟨v, hv, _⟩ := hF.required e he
    rw [hv]
    rfl
  · rcases hF.phase with ⟨_, hn, _⟩ | ⟨hk, _⟩ | ⟨hk, _⟩
    · exact Or.inr hn
    all_goals
      refine Or.inl fun hm => ?_
      rw [← lookup_isSome, hk] at hm
      cases hm

theorem isNum_unique {v : Val K} {x y : K} (hx : PMObj.IsNum v x) (hy : PMObj.IsNum v y) : x = y := by
  rcases hx with rfl | ⟨n, rfl, rfl⟩ <;> rcases hy with h | ⟨m, h, rfl⟩ <;> cases h <;> rfl

theorem rows_unique {v : Option (Val K)} {two : Prop} {t p q t' p' q' : List K} (h : PMObj.Rows v two t p q)
    (h' : PMObj.Rows v two t' p' q') : t = t' ∧ p = p' ∧ q = q' := by
  obtain ⟨r, hv, h1, h2⟩ := h.rows
  obtain ⟨r', hv', h1', h2'⟩ := h'.rows
  rw [hv] at hv'
  cases hv'
  refine ⟨rfl, rfl, ?_⟩
  by_cases ht : two
  · obtain ⟨s, hs⟩ := h1 ht
    obtain ⟨s', hs'⟩ := h1' ht
    rw [hs] at hs'
    cases hs'
    rfl
  · rw [h2 ht, h2' ht]

theorem phases_unique {pos pos' : List (Val K)} {kw kw' : Dict K} {two : Prop} {p p' : Prog.PhaseArg K}
    (hk : kw.lookup "phi12" = kw'.lookup "phi12")
    (ha : PMObj.argument pos kw "phase_function" = PMObj.argument pos' kw' "phase_function") (h : PMObj.Phases pos kw two p)
    (h' : PMObj.Phases pos' kw' two p') : p = p' := by
  have num : ∀ {v : Val K} {x : K}, PMObj.IsNum v x → (∃ y, v = .num y) ∨ ∃ n, v = .int n := by
    rintro v x (rfl | ⟨n, rfl, _⟩)
    · exact Or.inl ⟨_, rfl⟩
    · exact Or.inr ⟨_, rfl⟩
  cases h with
  | number h hx =>
    rw [hk] at h
    cases h' with
    | number h' hx' =>
      rw [h] at h'
      cases h'
      rw [isNum_unique hx hx']
    | array h' => rw [h] at h'; cases h'; rcases num hx with ⟨_, h⟩ | ⟨_, h⟩ <;> cases h
    | table h' => rw [h] at h'; cases h'; rcases num hx with ⟨_, h⟩ | ⟨_, h⟩ <;> cases h
    | program h' _ => rw [h] at h'; cases h'
    | missing h' _ => rw [h] at h'; cases h'
  | array h =>
    rw [hk] at h
    cases h' with
    | number h' hx' => rw [h] at h'; cases h'; rcases num hx' with ⟨_, h⟩ | ⟨_, h⟩ <;> cases h
    | array h' => rw [h] at h'; cases h'; rfl
    | table h' => rw [h] at h'; cases h'
    | program h' _ => rw [h] at h'; cases h'
    | missing h' _ => rw [h] at h'; cases h'
  | table h =>
    rw [hk] at h
    cases h' with
    | number h' hx' => rw [h] at h'; cases h'; rcases num hx' with ⟨_, h⟩ | ⟨_, h⟩ <;> cases h
    | array h' => rw [h] at h'; cases h'
    | table h' => rw [h] at h'; cases h'; rfl
    | program h' _ => rw [h] at h'; cases h'
    | missing h' _ => rw [h] at h'; cases h'
  | program h hp =>
    rw [hk] at h
    rw [ha] at hp
    cases h' with
    | number h' _ => rw [h] at h'; cases h'
    | array h' => rw [h] at h'; cases h'
    | table h' => rw [h] at h'; cases h'
    | program h' hp' =>
      obtain ⟨rfl, rfl, rfl⟩ := rows_unique hp hp'
      rfl
    | missing h' hp' =>
      obtain ⟨r, hv, _⟩ := hp.rows
      rw [hv] at hp'
      cases hp'
  | missing h hp =>
    rw [hk] at h
    rw [ha] at hp
    cases h' with
    | number h' _ => rw [h] at h'; cases h'
    | array h' => rw [h] at h'; cases h'
    | table h' => rw [h] at h'; cases h'
    | program h' hp' =>
      obtain ⟨r, hv, _⟩ := hp'.rows
      rw [hv] at hp
      cases hp
    | missing h' _ => rfl

/-- two calls alike in all but the harmonics and the voltage program describe the same machine but for these -/
theorem described_unique {pos pos' : List (Val K)} {kw kw' : Dict K} {a a' : Prog.PArgs K}
    (hp : ∀ k ∈ PMObj.parameters, k ≠ "harmonics" → k ≠ "voltage_function" → PMObj.argument pos kw k = PMObj.argument pos' kw' k)
    (hk : ∀ k ∈ ["machine_ref_frame", "h_num", "charge", "phi12"], kw.lookup k = kw'.lookup k)
    (hl : a.harmonics.length = a'.harmonics.length)
    (h : PMObj.Described pos kw a) (h' : PMObj.Described pos' kw' a') :
    a' = { a with harmonics := a'.harmonics, voltTime := a'.voltTime, volt1 := a'.volt1, volt2 := a'.volt2 } := by
  have num : ∀ {k : String} {x y : K}, k ∈ PMObj.parameters → k ≠ "harmonics" → k ≠ "voltage_function" →
      (∃ v, PMObj.argument pos kw k = some v ∧ PMObj.IsNum v x) → (∃ v, PMObj.argument pos' kw' k = some v ∧ PMObj.IsNum v y) → y = x := by
    rintro k x y h1 h2 h3 ⟨v, hv, hx⟩ ⟨w, hw, hy⟩
    rw [hp k h1 h2 h3, hw] at hv
    cases hv
    exact isNum_unique hy hx
  have e1 : a'.dturns = a.dturns := by
    have := h.dturns
    rw [hp _ (by decide +kernel) (by decide) (by decide), h'.dturns] at this
    exact Val.int.inj (Option.some.inj this)
  have e2 : a'.nprofiles = a.nprofiles := by
    have := h.nprofiles
    rw [hp _ (by decide +kernel) (by decide) (by decide), h'.nprofiles] at this
    exact Val.int.inj (Option.some.inj this)
  have e3 : a'.machineRefFrame = a.machineRefFrame := by
    have := h.machineRefFrame
    rw [hk _ (by decide +kernel), h'.machineRefFrame] at this
    exact Val.int.inj this
  have e4 := num (by decide +kernel) (by decide) (by decide) h.meanOrbitRad h'.meanOrbitRad
  have e5 := num (by decide +kernel) (by decide) (by decide) h.bendingRad h'.bendingRad
  have e6 := num (by decide +kernel) (by decide) (by decide) h.transGamma h'.transGamma
  have e7 := num (by decide +kernel) (by decide) (by decide) h.eRest h'.eRest
  have e8 : a'.hNum = a.hNum := by
    have := h.hNum
    rw [hk _ (by decide +kernel)] at this
    exact isNum_unique h'.hNum this
  have e9 : a'.q = a.q := by
    have := h.q
    rw [hk _ (by decide +kernel)] at this
    exact isNum_unique h'.q this
  have e10 : a'.momTime = a.momTime ∧ a'.momVal = a.momVal := by
    have := h.momentum
    rw [hp _ (by decide +kernel) (by decide) (by decide)] at this
    obtain ⟨h1, h2, _⟩ := rows_unique h'.momentum this
    exact ⟨h1, h2⟩
  have e11 : a'.phase = a.phase := by
    have := h.phase
    rw [hl] at this
    exact (phases_unique (hk _ (by decide +kernel)) (hp _ (by decide +kernel) (by decide) (by decide)) this h'.phase).symm
  have e12 : a'.tRef = a.tRef := by
    have h1 := h.tRef
    rw [hp _ (by decide +kernel) (by decide) (by decide)] at h1
    rcases h1 with ⟨h1, h2⟩ | ⟨v, x, hv, hx, h2⟩ <;> rcases h'.tRef with ⟨h1', h2'⟩ | ⟨w, y, hw, hy, h2'⟩
    · rw [h2, h2']
    · rw [hw] at h1
      cases h1
      rcases hy with hy | ⟨_, hy, _⟩ <;> cases hy
    · rw [h1'] at hv
      cases hv
      rcases hx with hx | ⟨_, hx, _⟩ <;> cases hx
    · rw [hw] at hv
      cases hv
      rw [h2, h2', isNum_unique hx hy]
  cases a
  cases a'
  dsimp only at *
  obtain ⟨rfl, rfl⟩ := e10
  subst e1 e2 e3 e4 e5 e6 e7 e8 e9 e11 e12
  rfl

theorem inner_harmonics (L : MathLib K) (a : Prog.PArgs K) (hs u0 u1 u2 : List K) (fuel : ℕ) (s : Prog.IS K) :
    Prog.inner L { a with harmonics := hs, voltTime := u0, volt1 := u1, volt2 := u2 } fuel s = Prog.inner L a fuel s := by
  induction fuel generalizing s with
  | zero => rfl
  | succ n ih =>
    unfold Prog.inner
    simp only [ih]
    rfl

theorem outer_harmonics (L : MathLib K) (a : Prog.PArgs K) (hs u0 u1 u2 : List K) (nt : Int) (fuel n : ℕ) (s : Prog.IS K) :
    Prog.outer L { a with harmonics := hs, voltTime := u0, volt1 := u1, volt2 := u2 } nt fuel n s = Prog.outer L a nt fuel n s := by
  induction n generalizing s with
  | zero => rfl
  | succ n ih =>
    unfold Prog.outer
    simp only [ih, inner_harmonics]

theorem momentum_harmonics (L : MathLib K) (a : Prog.PArgs K) (hs u0 u1 u2 : List K) (fuel : ℕ) :
    Prog.interpolateMomentum L { a with harmonics := hs, voltTime := u0, volt1 := u1, volt2 := u2 } fuel = Prog.interpolateMomentum L a fuel := by
  unfold Prog.interpolateMomentum
  simp only [outer_harmonics]
  rfl

/-- the arrays depend on the harmonics only through their number and their ratio -/
theorem values_harmonics (L : MathLib K) (a : Prog.PArgs K) {hs hs' : List K} (u0 u1 u2 u2' : List K) (hl : hs.length = hs'.length)
    (hsec : ∀ time v1, Prog.secondHarmonic { a with harmonics := hs, voltTime := u0, volt1 := u1, volt2 := u2 } time v1 =
      Prog.secondHarmonic { a with harmonics := hs', voltTime := u0, volt1 := u1, volt2 := u2' } time v1) (fuel : ℕ) :
    Prog.valuesAtTurns L { a with harmonics := hs, voltTime := u0, volt1 := u1, volt2 := u2 } fuel =
      Prog.valuesAtTurns L { a with harmonics := hs', voltTime := u0, volt1 := u1, volt2 := u2' } fuel := by
  unfold Prog.valuesAtTurns
  rw [momentum_harmonics L a hs u0 u1 u2, momentum_harmonics L a hs' u0 u1 u2']
  cases Prog.interpolateMomentum L a fuel with
  | error e => rfl
  | ok x =>
  rw [bind_ok, bind_ok]
  dsimp only
  cases Prog.npInterp u0 u1 x.1 with
  | error e => rfl
  | ok v1 =>
  rw [bind_ok, bind_ok]
  have hc : Prog.checkArray { a with harmonics := hs, voltTime := u0, volt1 := u1, volt2 := u2 } =
      Prog.checkArray { a with harmonics := hs', voltTime := u0, volt1 := u1, volt2 := u2' } := rfl
  rw [hsec, hc]
  cases Prog.checkArray { a with harmonics := hs', voltTime := u0, volt1 := u1, volt2 := u2' } with
  | error e => rfl
  | ok _ =>
  rw [bind_ok, bind_ok]
  cases Prog.secondHarmonic { a with harmonics := hs', voltTime := u0, volt1 := u1, volt2 := u2' } x.1 v1 with
  | error e => rfl
  | ok y =>
  rw [bind_ok, bind_ok]
  have hd : Prog.phaseDifference L { a with harmonics := hs, voltTime := u0, volt1 := u1, volt2 := u2 } y.2 x.1 =
      Prog.phaseDifference L { a with harmonics := hs', voltTime := u0, volt1 := u1, volt2 := u2' } y.2 x.1 := by
    unfold Prog.phaseDifference
    dsimp only
    rw [hl]
  rw [hd]
  rfl

/-- the arrays of a call, with what they were computed from -/
theorem arrays_of {L : MathLib K} {pos : List (Val K)} {kw : Dict K} (hnd : (kw.map Prod.fst).Nodup) {fuel : Nat} {o : Dict K}
    {arrays : Option (Prog.POut K)} (h : PMObj.newProgramsMachine L pos kw fuel = .ok (o, arrays)) :
    if truthy ((PMObj.argument pos kw "vat_now").getD (.flag true)) then
      ∃ a out, PMObj.Described pos kw a ∧ Prog.valuesAtTurns L a fuel = .ok out ∧ arrays = some out else arrays = none := by
  have h := (C111_attributes hnd h).2.2.2.2.2.2.2
  split_ifs at h ⊢
  · obtain ⟨a, out, ha, hv, harr, _⟩ := h
    exact ⟨a, out, ha, hv, harr⟩
  · exact h.1

/-- calls that say the same but for the harmonics and the voltages -/
structure Similar (pos pos' : List (Val K)) (kw kw' : Dict K) : Prop where
  parameters : ∀ k ∈ PMObj.parameters, k ≠ "harmonics" → k ≠ "voltage_function" → PMObj.argument pos kw k = PMObj.argument pos' kw' k
  keywords : ∀ k ∉ PMObj.parameters, kw.lookup k = kw'.lookup k

theorem similar_unique {pos pos' : List (Val K)} {kw kw' : Dict K} (hs : Similar pos pos' kw kw') {a a' : Prog.PArgs K}
    (hl : a.harmonics.length = a'.harmonics.length) (h : PMObj.Described pos kw a) (h' : PMObj.Described pos' kw' a') :
    a' = { a with harmonics := a'.harmonics, voltTime := a'.voltTime, volt1 := a'.volt1, volt2 := a'.volt2 } := by
  have hsub : ∀ k ∈ ["machine_ref_frame", "h_num", "charge", "phi12"], k ∉ PMObj.parameters := by decide +kernel
  exact described_unique hs.parameters (fun k hk => hs.keywords k (hsub k hk)) hl h h'

/-- C111 fails for the harmonics ("each is the harmonic of an RF station"): only their number and their ratio matter.  Two calls that
differ only in the harmonics, those of one a multiple of those of the other, give the same arrays; in particular with one RF station its
harmonic has no effect at all.  The harmonic in the drift coefficient is the keyword `h_num`, which is 1 if it is not given. -/
theorem C111_violated_harmonic {L : MathLib K} {pos pos' : List (Val K)} {kw kw' : Dict K} (hnd : (kw.map Prod.fst).Nodup)
    (hnd' : (kw'.map Prod.fst).Nodup) (hs : Similar pos pos' kw kw')
    (hv : PMObj.argument pos kw "voltage_function" = PMObj.argument pos' kw' "voltage_function") {hm : List K} {c : K} (hc : c ≠ 0)
    (hh : PMObj.argument pos kw "harmonics" = some (.list hm)) (hh' : PMObj.argument pos' kw' "harmonics" = some (.list (hm.map (c * ·))))
    {fuel : Nat} {o o' : Dict K} {arrays arrays' : Option (Prog.POut K)}
    (h : PMObj.newProgramsMachine L pos kw fuel = .ok (o, arrays)) (h' : PMObj.newProgramsMachine L pos' kw' fuel = .ok (o', arrays')) :
    arrays' = arrays ∧ (kw.lookup "h_num" = none → getattr o "h_num" = .ok (.int 1) ∧ getattr o' "h_num" = .ok (.int 1)) := by
  constructor
  · have A := arrays_of hnd h
    have A' := arrays_of hnd' h'
    rw [← hs.parameters "vat_now" (by decide +kernel) (by decide) (by decide)] at A'
    by_cases ht : truthy ((PMObj.argument pos kw "vat_now").getD (.flag true)) = true
    · rw [if_pos ht] at A A'
      obtain ⟨a, out, ha, hout, rfl⟩ := A
      obtain ⟨a', out', ha', hout', rfl⟩ := A'
      have eh : a.harmonics = hm := by
        have := ha.harmonics
        rw [hh] at this
        exact (Val.list.inj (Option.some.inj this)).symm
      have eh' : a'.harmonics = hm.map (c * ·) := by
        have := ha'.harmonics
        rw [hh'] at this
        exact (Val.list.inj (Option.some.inj this)).symm
      have hl : a.harmonics.length = a'.harmonics.length := by rw [eh, eh', List.length_map]
      have e := similar_unique hs hl ha ha'
      have ev := ha.voltage
      rw [hv, hl] at ev
      obtain ⟨e1, e2, e3⟩ := rows_unique ha'.voltage ev
      have key : Prog.valuesAtTurns L a' fuel = Prog.valuesAtTurns L a fuel := by
        rw [e]
        have ea : a = { a with harmonics := a.harmonics, voltTime := a.voltTime, volt1 := a.volt1, volt2 := a.volt2 } := rfl
        rw [e1, e2, e3]
        conv_rhs => rw [ea]
        refine values_harmonics L a _ _ _ _ hl.symm ?_ fuel
        intro time v1
        unfold Prog.secondHarmonic
        rw [eh, eh']
        dsimp only
        match hm with
        | [] => rfl
        | [x] => rfl
        | [x, y] =>
          show (if c * x = 0 then Except.error (Fault.exc Exn.zeroDivisionError) else _) = (if x = 0 then _ else _)
          by_cases hx : x = 0
          · rw [if_pos hx, if_pos (by rw [hx, mul_zero])]
          · rw [if_neg hx, if_neg (mul_ne_zero hc hx), mul_div_mul_left y x hc]
        | x :: y :: z :: l => rfl
      rw [key, hout] at hout'
      cases hout'
      rfl
    · rw [if_neg ht] at A A'
      rw [A, A']
  · intro hn
    have hmem : (("h_num", "h_num", .int 1) : String × String × Val K) ∈ PMObj.optionalAttrs (K := K) := by
      unfold PMObj.optionalAttrs
      simp
    have g := (C111_attributes hnd h).2.1 _ hmem (by simp) (by simp)
    have g' := (C111_attributes hnd' h').2.1 _ hmem (by simp) (by simp)
    dsimp only at g g'
    rw [← hs.keywords "h_num" (by decide +kernel)] at g'
    rw [hn] at g g'
    exact ⟨g, g'⟩

/-- C111 fails for the shapes of the programs ("the number of harmonics must be the same as the passed voltage and phase functions"):
with one harmonic, further rows of the voltage program are neither refused nor used. -/
theorem C111_violated_rows {L : MathLib K} {pos pos' : List (Val K)} {kw kw' : Dict K} (hnd : (kw.map Prod.fst).Nodup)
    (hnd' : (kw'.map Prod.fst).Nodup) (hs : Similar pos pos' kw kw')
    (hh : PMObj.argument pos kw "harmonics" = PMObj.argument pos' kw' "harmonics") {x : K}
    (hx : PMObj.argument pos kw "harmonics" = some (.list [x])) {time first : List K} {rest rest' : List (List K)}
    (hv : PMObj.argument pos kw "voltage_function" = some (.table (time :: first :: rest)))
    (hv' : PMObj.argument pos' kw' "voltage_function" = some (.table (time :: first :: rest')))
    {fuel : Nat} {o o' : Dict K} {arrays arrays' : Option (Prog.POut K)}
    (h : PMObj.newProgramsMachine L pos kw fuel = .ok (o, arrays)) (h' : PMObj.newProgramsMachine L pos' kw' fuel = .ok (o', arrays')) :
    arrays' = arrays := by
  have A := arrays_of hnd h
  have A' := arrays_of hnd' h'
  rw [← hs.parameters "vat_now" (by decide +kernel) (by decide) (by decide)] at A'
  by_cases ht : truthy ((PMObj.argument pos kw "vat_now").getD (.flag true)) = true
  · rw [if_pos ht] at A A'
    obtain ⟨a, out, ha, hout, rfl⟩ := A
    obtain ⟨a', out', ha', hout', rfl⟩ := A'
    have eh : a.harmonics = [x] := by
      have := ha.harmonics
      rw [hx] at this
      exact (Val.list.inj (Option.some.inj this)).symm
    have eh' : a'.harmonics = [x] := by
      have := ha'.harmonics
      rw [← hh, hx] at this
      exact (Val.list.inj (Option.some.inj this)).symm
    have e := similar_unique hs (by rw [eh, eh']) ha ha'
    have two : ∀ {b : Prog.PArgs K}, b.harmonics = [x] → ¬ b.harmonics.length = 2 := by
      intro b hb
      rw [hb]
      simp
    obtain ⟨r, hr, _, h2⟩ := ha.voltage.rows
    obtain ⟨r', hr', _, h2'⟩ := ha'.voltage.rows
    rw [hv] at hr
    rw [hv'] at hr'
    obtain ⟨f1, f2⟩ := List.cons.inj (Val.table.inj (Option.some.inj hr))
    obtain ⟨f3, _⟩ := List.cons.inj f2
    obtain ⟨f1', f2'⟩ := List.cons.inj (Val.table.inj (Option.some.inj hr'))
    obtain ⟨f3', _⟩ := List.cons.inj f2'
    have : a' = a := by
      rw [e, eh'.trans eh.symm, ← f1', ← f3', f1, f3, (h2' (two eh')).trans (h2 (two eh)).symm]
    rw [this, hout] at hout'
    cases hout'
    rfl
  · rw [if_neg ht] at A A'
    rw [A, A']

/-- C111 fails for the keyword `phi12`: it is documented as a phase in radians, but no value of it gives a machine whose arrays are
computed. -/
theorem C111_violated_phi12 [IsStrictOrderedRing K] {L : MathLib K} {pos : List (Val K)} {kw : Dict K} (hnd : (kw.map Prod.fst).Nodup)
    (hk : "phi12" ∈ kw.map Prod.fst) (ht : truthy ((PMObj.argument pos kw "vat_now").getD (.flag true)) = true) (fuel : Nat)
    (r : Dict K × Option (Prog.POut K)) : PMObj.newProgramsMachine L pos kw fuel ≠ .ok r := by
  intro h
  obtain ⟨o, arrays⟩ := r
  have A := arrays_of hnd h
  rw [if_pos ht] at A
  obtain ⟨a, out, ha, hout, _⟩ := A
  rw [← lookup_isSome] at hk
  have hp := ha.phase
  cases hpa : a.phase with
  | number v => exact Prog.values_number hpa fuel out hout
  | array v => exact Prog.values_array hpa fuel out hout
  | both => rw [hpa] at hp; cases hp
  | program t p1 p2 =>
    rw [hpa] at hp
    cases hp with
    | program h _ => rw [h] at hk; cases hk
  | missing =>
    rw [hpa] at hp
    cases hp with
    | missing h _ => rw [h] at hk; cases hk

theorem mapM_congr {A B : Type} {f g : A → Verif.M B} {l : List A} (h : ∀ x ∈ l, f x = g x) : l.mapM f = l.mapM g := by
  induction l with
  | nil => rfl
  | cons x l ih =>
    rw [List.mapM_cons, List.mapM_cons, h x (List.mem_cons_self ..), ih fun y hy => h y (List.mem_cons_of_mem _ hy)]

theorem bindArgs_unknown (params : List (String × Option (Val K))) (pos : List (Val K)) (kw : Dict K) (name : String) (v : Val K)
    (hn : name ∉ params.map Prod.fst) :
    bindArgs params pos ((name, v) :: kw) = (bindArgs params pos kw).map fun r => (r.1, (name, v) :: r.2) := by
  have hfresh : (((params.map Prod.fst).zip pos).lookup name) = none := by
    apply lookup_none_of_not_mem
    intro hm
    obtain ⟨⟨a, b⟩, hab, rfl⟩ := List.mem_map.mp hm
    exact hn (List.of_mem_zip hab).1
  unfold bindArgs
  dsimp only
  rw [List.any_cons, hfresh]
  by_cases h1 : params.length < pos.length
  · rw [if_pos h1, if_pos h1]
    rfl
  rw [if_neg h1, if_neg h1]
  have hb : ((none : Option (Val K)).isSome || kw.any fun p => (((params.map Prod.fst).zip pos).lookup p.1).isSome)
      = kw.any fun p => (((params.map Prod.fst).zip pos).lookup p.1).isSome := rfl
  rw [hb]
  split_ifs with h2
  · rfl
  have hm := mapM_congr (l := params) (f := fun p => match ((params.map Prod.fst).zip pos ++ (name, v) :: kw).lookup p.1 with
      | some v => (.ok (p.1, v) : Verif.M (String × Val K))
      | none => match p.2 with
        | some v => .ok (p.1, v)
        | none => .error (.exc .typeError)) (g := fun p => match ((params.map Prod.fst).zip pos ++ kw).lookup p.1 with
      | some v => (.ok (p.1, v) : Verif.M (String × Val K))
      | none => match p.2 with
        | some v => .ok (p.1, v)
        | none => .error (.exc .typeError)) (by
    intro p hp
    have : p.1 ≠ name := by
      rintro rfl
      exact hn (List.mem_map_of_mem hp)
    rw [lookup_append, lookup_append, lookup_cons, if_neg this])
  refine (congrArg (fun b : Verif.M (Dict K) => b >>= fun bound => pure (bound, ((name, v) :: kw).filter fun p =>
    !(params.map Prod.fst).contains p.1)) hm).trans ?_
  change _ = Except.map _ ((params.mapM fun p => match ((params.map Prod.fst).zip pos ++ kw).lookup p.1 with
      | some v => (.ok (p.1, v) : Verif.M (String × Val K))
      | none => match p.2 with
        | some v => .ok (p.1, v)
        | none => .error (.exc .typeError)) >>= fun bound => pure (bound, kw.filter fun p => !(params.map Prod.fst).contains p.1))
  cases (params.mapM fun p => match ((params.map Prod.fst).zip pos ++ kw).lookup p.1 with
      | some v => (.ok (p.1, v) : Verif.M (String × Val K))
      | none => match p.2 with
        | some v => .ok (p.1, v)
        | none => .error (.exc .typeError)) with
  | error e => rfl
  | ok b =>
    rw [bind_ok, bind_ok, List.filter_cons, if_pos]
    · rfl
    · rw [Bool.not_eq_true', ← Bool.not_eq_true, List.contains_iff_mem]
      exact hn

theorem baseInit_unknown (dturns rad rho gamma rest nprof nbins dtbin : Val K) (kw : Dict K) (name : String) (v : Val K)
    (h1 : name ≠ "n_profiles") (h2 : name ≠ "n_bins") (h3 : (baseDefaults (K := K)).lookup name = none) :
    baseInit dturns rad rho gamma rest nprof nbins dtbin ((name, v) :: kw) = baseInit dturns rad rho gamma rest nprof nbins dtbin kw := by
  have hp : processKwargs baseDefaults ((name, v) :: kw) = processKwargs (baseDefaults (K := K)) kw := by
    unfold processKwargs
    rw [List.foldl_cons, h3]
    rfl
  unfold baseInit
  rw [lookup_cons, lookup_cons, if_neg h1.symm, if_neg h2.symm, hp]

/-- C111 fails for names that mean nothing: they are accepted and have no effect at all.  A misspelt keyword leaves the default. -/
theorem C111_violated_unknown (L : MathLib K) (pos : List (Val K)) (kw : Dict K) (name : String) (v : Val K) (hk : name ∉ PMObj.known)
    (fuel : Nat) : PMObj.newProgramsMachine L pos ((name, v) :: kw) fuel = PMObj.newProgramsMachine L pos kw fuel := by
  have hi : PMObj.programsInit L pos ((name, v) :: kw) = PMObj.programsInit L pos kw := by
    have hne : ∀ k ∈ PMObj.known, name ≠ k := by
      rintro k hk' rfl
      exact hk hk'
    have hd : (baseDefaults (K := K)).lookup name = none := by
      apply lookup_none_of_not_mem
      intro hm
      apply hk
      have : ∀ k ∈ (baseDefaults (K := K)).map Prod.fst, k ∈ PMObj.known := by
        unfold baseDefaults
        simp only [List.map_cons, List.map_nil, List.mem_cons, List.not_mem_nil, or_false, forall_eq_or_imp, forall_eq]
        decide +kernel
      exact this _ hm
    have hn : name ∉ (PMObj.programsParams (K := K)).map Prod.fst := by
      intro hm
      apply hk
      unfold PMObj.known
      rw [List.mem_append]
      exact Or.inl hm
    unfold PMObj.programsInit
    rw [bindArgs_unknown _ _ _ _ _ hn]
    cases bindArgs PMObj.programsParams pos kw with
    | error e => rfl
    | ok r =>
      obtain ⟨b, rest⟩ := r
      have hmap : ∀ (f : Dict K × Dict K → Dict K × Dict K), (Except.ok (b, rest) : Verif.M _).map f = .ok (f (b, rest)) := fun _ => rfl
      rw [hmap, bind_ok, bind_ok]
      simp only [baseInit_unknown _ _ _ _ _ _ _ _ _ _ _ (hne "n_profiles" (by decide +kernel)) (hne "n_bins" (by decide +kernel)) hd]
      rw [lookup_cons, if_neg (hne "phi12" (by decide +kernel)).symm]
  unfold PMObj.newProgramsMachine
  rw [hi]

/-- C111 fails for the documented name `phase_program`: the phase program has to be given as `phase_function`; given under the documented
name it is ignored, and the machine has no phases. -/
theorem C111_violated_documented_name (L : MathLib K) (pos : List (Val K)) (kw : Dict K) (v : Val K) (fuel : Nat) :
    PMObj.newProgramsMachine L pos (("phase_program", v) :: kw) fuel = PMObj.newProgramsMachine L pos kw fuel :=
  C111_violated_unknown L pos kw "phase_program" v (by decide +kernel) fuel

end

/-! ## Examples -/

/-- the call that makes the machine `rampProg 1 3` -/
def rampArgs (harmonics : Val ℚ) (voltage : List (List ℚ)) : List (Val ℚ) :=
  [.int 1, .table voltage, .table [[0, 7], [1, 8]], harmonics, .num (1/6), .num 1, .num 2, .num 1, .int 3, .int 6, .num (1/2), .num 2]

/-- the phase program of `rampProg` -/
def rampPhase : Dict ℚ := [("phase_function", .table [[0, 25], [0, 25], [1, 1]])]

/-- voltages of `rampProg` -/
def rampVolt : List (List ℚ) := [[0, 25], [1, 26], [0, 0]]

/-- an attribute of the machine made by a call -/
def programsAttr (pos : List (Val ℚ)) (kw : Dict ℚ) (name : String) : Verif.M (Val ℚ) := do
  let r ← PMObj.newProgramsMachine libQ pos kw 50
  getattr r.1 name

/-- the call makes the arrays of `rampProg`; attributes given, by default, and replaced -/
example : (PMObj.newProgramsMachine libQ (rampArgs (.list [1, 2]) rampVolt) rampPhase 50).map (fun r => r.2.map Prog.POut.phi0)
      = (Prog.valuesAtTurns libQ (rampProg 1 3) 50).map (fun o => some o.phi0) ∧
    (Prog.valuesAtTurns libQ (rampProg 1 3) 50).toOption.isSome = true ∧
    programsAttr (rampArgs (.list [1, 2]) rampVolt) (("niter", .int 7) :: rampPhase) "niter" = .ok (.int 7) ∧
    programsAttr (rampArgs (.list [1, 2]) rampVolt) rampPhase "niter" = .ok (.int 20) ∧
    programsAttr (rampArgs (.list [1, 2]) rampVolt) rampPhase "max_dt" = .ok (.num 3) ∧
    programsAttr (rampArgs (.list [1, 2]) rampVolt) (("h_ratio", .num 5) :: rampPhase) "h_ratio" = .ok (.num 2) ∧
    programsAttr (rampArgs (.list [1, 2]) rampVolt) rampPhase "n_turns" = .ok (.int 3) := by decide +kernel

/-- without computing the arrays `h_ratio` stays as given -/
example : programsAttr (rampArgs (.list [1, 2]) rampVolt) (("h_ratio", .num 5) :: ("vat_now", .flag false) :: rampPhase) "h_ratio"
    = .ok (.num 5) := by decide +kernel

/-- calls that are refused: three harmonics, both kinds of phases, a parameter given twice, one missing -/
example : (PMObj.newProgramsMachine libQ (rampArgs (.list [1, 2, 3]) rampVolt) rampPhase 50).map (fun r => r.2.isSome)
      = .error (.exc .arrayLengthError) ∧
    (PMObj.newProgramsMachine libQ (rampArgs (.list [1, 2]) rampVolt) (("phi12", .num 1) :: rampPhase) 50).map (fun r => r.2.isSome)
      = .error (.exc .valueError) ∧
    (PMObj.newProgramsMachine libQ (rampArgs (.list [1, 2]) rampVolt) (("dturns", .int 1) :: rampPhase) 50).map (fun r => r.2.isSome)
      = .error (.exc .typeError) ∧
    (PMObj.newProgramsMachine libQ ((rampArgs (.list [1, 2]) rampVolt).dropLast) rampPhase 50).map (fun r => r.2.isSome)
      = .error (.exc .typeError) := by decide +kernel

/-- the hypotheses of `C111_violated_harmonic` and `C111_violated_phi12`: harmonics [1, 2] and [21, 42]; a phase by keyword -/
example : (PMObj.newProgramsMachine libQ (rampArgs (.list [1, 2]) rampVolt) rampPhase 50).toOption.isSome = true ∧
    (PMObj.newProgramsMachine libQ (rampArgs (.list [21, 42]) rampVolt) rampPhase 50).toOption.isSome = true ∧
    PMObj.argument (rampArgs (.list [21, 42]) rampVolt) rampPhase "harmonics" = some (.list ([1, 2].map ((21 : ℚ) * ·))) ∧
    programsAttr (rampArgs (.list [21, 42]) rampVolt) rampPhase "h_num" = .ok (.int 1) ∧
    (PMObj.newProgramsMachine libQ (rampArgs (.list [1, 2]) rampVolt) [("phi12", .num 1)] 50).map (fun r => r.2.isSome)
      = .error (.exc .typeError) := by decide +kernel

example : Similar (rampArgs (.list [1, 2]) rampVolt) (rampArgs (.list [21, 42]) rampVolt) rampPhase rampPhase :=
  ⟨by decide +kernel, fun _ _ => rfl⟩

/-- the hypotheses of `C111_violated_rows`: one harmonic with a voltage program for one, two or three -/
example : (PMObj.newProgramsMachine libQ (rampArgs (.list [1]) [[0, 25], [1, 26]]) rampPhase 50).toOption.isSome = true ∧
    (PMObj.newProgramsMachine libQ (rampArgs (.list [1]) rampVolt) rampPhase 50).toOption.isSome = true ∧
    (PMObj.newProgramsMachine libQ (rampArgs (.list [1]) [[0, 25], [1, 26], [9, 9], [5]]) rampPhase 50).toOption.isSome = true := by
  decide +kernel

/-- the hypotheses of `C111_violated_unknown`: the name of the parameter as it is documented -/
example : "phase_program" ∉ PMObj.known ∧ "harmonic" ∉ PMObj.known ∧ "q" ∉ PMObj.known := by decide +kernel

end Verif.Props
