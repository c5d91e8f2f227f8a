import Verif.Model.PostDispatch
import Verif.Props.PostProcess
import Verif.Props.PhaseSpace

/-!
# C99 — the summary of a phase space and the argument types of the beam quantities
-/

set_option linter.unusedSectionVars false

namespace Verif.Props
open Verif.Asrt Verif.Mch Verif.Spec Verif.Pre Verif.PostD Finset
open Verif.Post (npGet_one npGet_zero)

section general
variable {K : Type} [Field K] [LinearOrder K]

theorem dispatch_hit {R : Type} {args : List (Val K)} {sig : List Cls} (f : List (Val K) → M R) (rest : List (List Cls × (List (Val K) → M R)))
    (h : fits args sig = true) : dispatch ((sig, f) :: rest) args = f args := by
  rw [dispatch, if_pos h]

theorem dispatch_miss {R : Type} {args : List (Val K)} {sig : List Cls} (f : List (Val K) → M R) (rest : List (List Cls × (List (Val K) → M R)))
    (h : fits args sig = false) : dispatch ((sig, f) :: rest) args = dispatch rest args := by
  rw [dispatch, if_neg (by rw [h]; decide)]

theorem pd_rms2 (L : MathLib K) (a b : Val K) : emittanceRms L [a, b] = emittanceRms2 L [a, b] := by
  unfold emittanceRms emittanceRms2
  rw [dispatch]
  have : fits [a, b] [Cls.ndarray, Cls.ndarray, Cls.ndarray] = false := by simp [fits]
  rw [this]
  simp

theorem pd_dpp3 (L : MathLib K) (a b c : Val K) : rmsDppD L [a, b, c] = rmsDpp3 L [a, b, c] := by
  unfold rmsDppD rmsDpp3
  simp only [dispatch]
  have : fits [a, b, c] [Cls.ndarray, Cls.ndarray, Cls.number, Cls.number] = false := by simp [fits]
  rw [this]
  simp

theorem pd_rms2_ok {L : MathLib K} {a b r : Val K} (h : emittanceRms2 L [a, b] = .ok r) :
    isInst a .float = true ∧ isInst b .float = true := by
  unfold emittanceRms2 at h
  simp only [dispatch] at h
  split at h
  · rename_i hf
    simpa [fits] using hf
  · cases h

theorem pd_dpp3_ok {L : MathLib K} {a b c r : Val K} (h : rmsDpp3 L [a, b, c] = .ok r) :
    isInst a .number = true ∧ isInst b .number = true ∧ isInst c .number = true := by
  unfold rmsDpp3 at h
  simp only [dispatch] at h
  split at h
  · rename_i hf
    simpa [fits] using hf
  · cases h

theorem isInst_ndarray {v : Val K} (h : isInst v .ndarray = true) : ∃ a, v = .arr a := by
  cases v with
  | arr a => exact ⟨a, rfl⟩
  | np dt v => cases dt <;> simp [isInst] at h
  | _ => simp [isInst] at h

theorem sumVal_arr {v p : Val K} {k : Nat} (h : sumVal v k = .ok p) (hp : ∃ a, p = .arr a) : ∃ a, v = .arr a := by
  obtain ⟨a, rfl⟩ := hp
  cases v with
  | arr b => exact ⟨b, rfl⟩
  | gpu b =>
    unfold sumVal at h
    obtain ⟨c, -, h2⟩ := (bind_ok_iff).mp h
    simp [pure, Except.pure] at h2
  | _ => simp [sumVal] at h

theorem stdVal_float {L : MathLib K} {p b s : Val K} (h : stdVal L p b = .ok s) (hs : isInst s .float = true ∨ isInst s .number = true) :
    (∃ a, p = .arr a) ∧ ∃ a, b = .arr a := by
  cases p <;> cases b <;> simp only [stdVal] at h <;> try cases h
  · exact ⟨⟨_, rfl⟩, _, rfl⟩
  · obtain ⟨_, _, h2⟩ := (bind_ok_iff).mp h
    cases h2
  · obtain ⟨_, _, h2⟩ := (bind_ok_iff).mp h
    cases h2
  · obtain ⟨_, _, h2⟩ := (bind_ok_iff).mp h
    obtain ⟨_, _, h3⟩ := (bind_ok_iff).mp h2
    simp only [pure, Except.pure, Except.ok.injEq] at h3
    subst h3
    simp [isInst] at hs

/-- C99: whatever is passed, `post_process` returns a dictionary exactly when the three separate functions return, and with their
values: `emittance_rms(phase_space, t_bins, e_bins)`, `emittance_90(phase_space, t_bins, e_bins)` and
`rms_dpp(phase_space.sum(0), e_bins, energy, mass)`. -/
theorem C99_summary (L : MathLib K) (ps t e energy mass : Val K) (out : Summary K) :
    postProcess L ps t e energy mass = .ok out ↔
      emittanceRms L [ps, t, e] = .ok out.emittanceRms ∧ emittance90 ps t e = .ok out.emittance90 ∧
      ∃ p, sumVal ps 0 = .ok p ∧ rmsDppD L [p, e, energy, mass] = .ok out.rmsDpp := by
  constructor
  · intro h
    unfold postProcess at h
    obtain ⟨tp, h1, h⟩ := (bind_ok_iff).mp h
    obtain ⟨ep, h2, h⟩ := (bind_ok_iff).mp h
    obtain ⟨ts, h3, h⟩ := (bind_ok_iff).mp h
    obtain ⟨es, h4, h⟩ := (bind_ok_iff).mp h
    obtain ⟨a, h5, h⟩ := (bind_ok_iff).mp h
    obtain ⟨b, h6, h⟩ := (bind_ok_iff).mp h
    obtain ⟨c, h7, h⟩ := (bind_ok_iff).mp h
    simp only [pure, Except.pure, Except.ok.injEq] at h
    subst h
    rw [pd_rms2] at h5
    rw [pd_dpp3] at h7
    obtain ⟨f1, f2⟩ := pd_rms2_ok h5
    obtain ⟨-, n2, n3⟩ := pd_dpp3_ok h7
    obtain ⟨a1, a2⟩ := stdVal_float h3 (Or.inl f1)
    obtain ⟨a3, a4⟩ := stdVal_float h4 (Or.inl f2)
    obtain ⟨aps, rfl⟩ := sumVal_arr h1 a1
    obtain ⟨at', rfl⟩ := a2
    obtain ⟨ae, rfl⟩ := a4
    obtain ⟨aep, rfl⟩ := a3
    refine ⟨?_, h6, .arr aep, h2, ?_⟩
    · unfold emittanceRms
      simp only [dispatch, fits, isInst, Bool.and_self, if_true]
      unfold emittanceRmsArr
      dsimp only
      rw [h1, bind_ok, h3, bind_ok, h2, bind_ok, h4, bind_ok, h5]
    · unfold rmsDppD
      have e1 : fits [.arr aep, .arr ae, energy, mass] [Cls.number, .number, .number] = false := by rfl
      have e2 : fits [.arr aep, .arr ae, energy, mass] [Cls.ndarray, .ndarray, .number, .number] = true := by
        rw [fits, fits, fits, fits, fits, n2, n3]
        rfl
      rw [dispatch_miss _ _ e1, dispatch_hit _ _ e2]
      unfold rmsDppArr
      dsimp only
      rw [h4, bind_ok, h7]
  · rintro ⟨h1, h2, p, h3, h4⟩
    unfold emittanceRms at h1
    simp only [dispatch] at h1
    split at h1
    · rename_i hf
      unfold emittanceRmsArr at h1
      obtain ⟨tp, g1, h1⟩ := (bind_ok_iff).mp h1
      obtain ⟨ts, g2, h1⟩ := (bind_ok_iff).mp h1
      obtain ⟨ep, g3, h1⟩ := (bind_ok_iff).mp h1
      obtain ⟨es, g4, h1⟩ := (bind_ok_iff).mp h1
      have : ep = p := by rw [g3] at h3; exact Except.ok.inj h3
      subst this
      unfold rmsDppD at h4
      have e1 : fits [ep, e, energy, mass] [Cls.number, .number, .number] = false := by simp [fits]
      simp only [dispatch, e1] at h4
      rw [if_neg (by simp)] at h4
      split at h4
      · unfold rmsDppArr at h4
        dsimp only at h4
        rw [g4, bind_ok] at h4
        unfold postProcess
        rw [g1, bind_ok, g3, bind_ok, g2, bind_ok, g4, bind_ok, pd_rms2, h1, bind_ok, h2, bind_ok, pd_dpp3, h4, bind_ok]
        rfl
      · cases h4
    · split at h1
      · rename_i _ hf
        simp [fits] at hf
      · cases h1

/-- C99: for every list of arguments at most one entry of a dispatched function fits, so the order of registration is of no
account -/
theorem C99_unambiguous (args : List (Val K)) :
    ¬ (fits args [Cls.ndarray, .ndarray, .ndarray] = true ∧ fits args [Cls.float, .float] = true) ∧
    ¬ (fits args [Cls.number, .number, .number] = true ∧ fits args [Cls.ndarray, .ndarray, .number, .number] = true) := by
  constructor
  · rintro ⟨h1, h2⟩
    rcases args with _ | ⟨a, _ | ⟨b, _ | ⟨c, r⟩⟩⟩ <;> simp [fits] at h1 h2
  · rintro ⟨h1, h2⟩
    rcases args with _ | ⟨a, _ | ⟨b, _ | ⟨c, _ | ⟨d, r⟩⟩⟩⟩ <;> simp [fits] at h1 h2

/-- C99 is violated: bins of two dimensions, which the documentation allows, are rejected by every function that needs a standard
deviation, whatever the phase space -/
theorem C99_violated_two_dimensions (L : MathLib K) (ps : Val K) (t e : Nd K) (energy mass : Val K) (n m : Nat)
    (ht : t.shape = [n, m] ∨ e.shape = [n, m]) :
    (∀ r, emittanceRms L [ps, .arr t, .arr e] ≠ .ok r) ∧ (∀ out, postProcess L ps (.arr t) (.arr e) energy mass ≠ .ok out) ∧
    (e.shape = [n, m] → ∀ p r, rmsDppD L [p, .arr e, energy, mass] ≠ .ok r) := by
  have bad : ∀ (p : Val K) (b : Nd K), b.shape = [n, m] → ∀ s, stdVal L p (.arr b) ≠ .ok s := by
    intro p b hb s h
    cases p <;> simp only [stdVal] at h <;> try cases h
    · obtain ⟨_, h1, _⟩ := (bind_ok_iff).mp h
      simp [assertArrayNumelEqual, assertGreaterOrEqual, hb, bind, Except.bind, raise] at h1
    · obtain ⟨_, _, h2⟩ := (bind_ok_iff).mp h
      cases h2
  have hrms : ∀ r, emittanceRms L [ps, .arr t, .arr e] ≠ .ok r := by
    intro r h1
    unfold emittanceRms at h1
    simp only [dispatch] at h1
    split at h1
    · unfold emittanceRmsArr at h1
      obtain ⟨tp, g1, h1⟩ := (bind_ok_iff).mp h1
      obtain ⟨ts, g2, h1⟩ := (bind_ok_iff).mp h1
      obtain ⟨ep, g3, h1⟩ := (bind_ok_iff).mp h1
      obtain ⟨es, g4, h1⟩ := (bind_ok_iff).mp h1
      rcases ht with ht | ht
      · exact bad _ _ ht _ g2
      · exact bad _ _ ht _ g4
    · split at h1
      · rename_i hf
        simp [fits] at hf
      · cases h1
  refine ⟨hrms, fun out h => hrms _ ((C99_summary L _ _ _ _ _ _).mp h).1, ?_⟩
  intro he p r h4
  unfold rmsDppD at h4
  have e1 : fits [p, .arr e, energy, mass] [Cls.number, .number, .number] = false := by simp [fits]
  simp only [dispatch, e1] at h4
  rw [if_neg (by simp)] at h4
  split at h4
  · unfold rmsDppArr at h4
    obtain ⟨s, g, _⟩ := (bind_ok_iff).mp h4
    exact bad _ _ he _ g
  · cases h4

/-- C99 is violated: `emittance_fractional(phase_space, t_bins, e_bins, fraction)` with the documented fourth argument given by
position is never accepted, nor is `emittance_rms` of numbers other than python floats and double precision ones -/
theorem C99_violated_position (L : MathLib K) (f : K) (ps t e frac : Val K) (s s' : K) :
    PostD.emittanceFractional f [ps, t, e, frac] = .error (.exc .runtimeError) ∧
    emittanceRms L [.np .f32 s, .np .f32 s'] = .error (.exc .runtimeError) ∧
    emittanceRms L [.int s, .int s'] = .error (.exc .runtimeError) := by
  refine ⟨?_, ?_, ?_⟩
  · simp [PostD.emittanceFractional, dispatch, fits]
  · simp [emittanceRms, dispatch, fits, isInst]
  · simp [emittanceRms, dispatch, fits, isInst]

/-- C99 is violated: a phase space of single precision with bins of single precision has no summary and no rms emittance -/
theorem C99_violated_single (L : MathLib K) (ps t e : Nd K) (hp : ps.dt = .f32) (ht : t.dt = .f32) (energy mass : Val K) :
    (∀ r, emittanceRms L [.arr ps, .arr t, .arr e] ≠ .ok r) ∧
    (∀ out, postProcess L (.arr ps) (.arr t) (.arr e) energy mass ≠ .ok out) := by
  have hrms : ∀ r, emittanceRms L [.arr ps, .arr t, .arr e] ≠ .ok r := by
    intro r h1
    unfold emittanceRms at h1
    simp only [dispatch, fits, isInst, Bool.and_self, if_true] at h1
    unfold emittanceRmsArr at h1
    obtain ⟨tp, g1, h1⟩ := (bind_ok_iff).mp h1
    obtain ⟨ts, g2, h1⟩ := (bind_ok_iff).mp h1
    obtain ⟨ep, g3, h1⟩ := (bind_ok_iff).mp h1
    obtain ⟨es, g4, h1⟩ := (bind_ok_iff).mp h1
    have hdt : ∃ a : Nd K, tp = .arr a ∧ a.dt = .f32 := by
      unfold sumVal at g1
      obtain ⟨a, g, g1⟩ := (bind_ok_iff).mp g1
      simp only [pure, Except.pure, Except.ok.injEq] at g1
      refine ⟨a, g1.symm, ?_⟩
      unfold sumAxis at g
      split at g
      · cases g
      · cases g
        exact hp
    obtain ⟨a, rfl, ha⟩ := hdt
    simp only [stdVal] at g2
    obtain ⟨_, _, g2⟩ := (bind_ok_iff).mp g2
    obtain ⟨v, _, g2⟩ := (bind_ok_iff).mp g2
    simp only [pure, Except.pure, Except.ok.injEq, ha, ht, promote] at g2
    subst g2
    have := (pd_rms2_ok h1).1
    simp [isInst] at this
  exact ⟨hrms, fun out h => hrms _ ((C99_summary L _ _ _ _ _ _).mp h).1⟩

/-- C99 is violated: phase spaces on the GPU have no summary, no emittance and no momentum spread -/
theorem C99_violated_gpu (L : MathLib K) (f : K) (ps : Nd K) (t e energy mass : Val K) :
    emittanceRms L [.gpu ps, t, e] = .error (.exc .runtimeError) ∧
    PostD.emittanceFractional f [.gpu ps, t, e] = .error (.exc .runtimeError) ∧
    rmsDppD L [.gpu ps, e, energy, mass] = .error (.exc .runtimeError) ∧
    (∀ out, postProcess L (.gpu ps) t e energy mass ≠ .ok out) := by
  have h1 : emittanceRms L [.gpu ps, t, e] = .error (.exc .runtimeError) := by
    simp [emittanceRms, dispatch, fits, isInst]
  refine ⟨h1, by simp [PostD.emittanceFractional, dispatch, fits, isInst], by simp [rmsDppD, dispatch, fits, isInst], ?_⟩
  intro out h
  have := ((C99_summary L _ _ _ _ _ _).mp h).1
  rw [h1] at this
  cases this

end general

section values
variable {K : Type} [Field K] [LinearOrder K] [IsStrictOrderedRing K]

theorem getD_flat {n m i j : ℕ} (f : ℕ → ℕ → K) (hi : i < n) (hj : j < m) : (flat n m f).getD (i * m + j) 0 = f i j := by
  have h := rd_flat f hi hj (z := ((i * m + j : ℕ) : ℤ)) (by push_cast; ring)
  unfold rd at h
  rw [if_pos (by omega)] at h
  rw [List.getD_eq_getElem?_getD]
  have : (((i * m + j : ℕ) : ℤ)).toNat = i * m + j := by omega
  rw [this] at h
  revert h
  cases (flat n m f)[i * m + j]? with
  | none => simp
  | some v => simp

theorem sumAxis_one (dt : DT) (n m : ℕ) (p : ℕ → ℕ → K) :
    sumAxis ⟨dt, [n, m], flat n m p⟩ 1 = .ok ⟨dt, [n], tab n fun i => ∑ j ∈ range m, p i j⟩ := by
  unfold sumAxis
  simp only [List.getElem?_cons_succ, List.getElem?_cons_zero, Except.ok.injEq, Nd.mk.injEq, true_and]
  refine ⟨rfl, ?_⟩
  have : ([n, m].take 1).prod * ([n, m].drop (1 + 1)).prod = n := by simp
  rw [this]
  apply tab_congr
  intro i hi
  have : ([n, m].drop (1 + 1)).prod = 1 := by simp
  rw [this, ← sum_tab]
  unfold tab
  congr 1
  apply List.map_congr_left
  intro j hj
  rw [Nat.mod_one, Nat.div_one, mul_one, add_zero]
  exact getD_flat p hi (List.mem_range.mp hj)

theorem sumAxis_zero (dt : DT) (n m : ℕ) (p : ℕ → ℕ → K) :
    sumAxis ⟨dt, [n, m], flat n m p⟩ 0 = .ok ⟨dt, [m], tab m fun j => ∑ i ∈ range n, p i j⟩ := by
  unfold sumAxis
  simp only [List.getElem?_cons_zero, Except.ok.injEq, Nd.mk.injEq, true_and]
  refine ⟨rfl, ?_⟩
  have : ([n, m].take 0).prod * ([n, m].drop (0 + 1)).prod = m := by simp
  rw [this]
  apply tab_congr
  intro j hj
  have : ([n, m].drop (0 + 1)).prod = m := by simp
  rw [this, ← sum_tab]
  unfold tab
  congr 1
  apply List.map_congr_left
  intro i hi
  rw [Nat.div_eq_of_lt hj, Nat.mod_eq_of_lt hj, zero_mul, zero_add]
  exact getD_flat p (List.mem_range.mp hi) hj

theorem numel_ok (n : ℕ) : assertArrayNumelEqual [[n], [n]] [n].prod = .ok () := by
  unfold assertArrayNumelEqual assertGreaterOrEqual
  rw [if_neg (by simp), bind_ok, if_neg (by simp)]

theorem width_eq (d : DT) {n : ℕ} (b : ℕ → K) (hn : 2 ≤ n) : width ⟨d, [n], tab n b⟩ = .ok ⟨d, [], [b 1 - b 0]⟩ := by
  unfold width
  dsimp only
  rw [if_neg (by omega)]
  have g : ∀ i, i < n → (tab n b).getD i 0 = b i := by
    intro i hi
    rw [List.getD_eq_getElem?_getD, getElem?_tab, if_pos hi]
    rfl
  have e1 : ([] : List ℕ).prod = 1 := rfl
  rw [e1]
  show Except.ok (Nd.mk d [] [(tab n b).getD (1 + 0) 0 - (tab n b).getD 0 0]) = _
  rw [g 0 (by omega), g (1 + 0) (by omega)]

/-- for one-dimensional bins the dispatched function computes what `Post.emittanceFractional` computes -/
theorem fractional_eq {n m : ℕ} (hn : 2 ≤ n) (hm : 2 ≤ m) (t e : ℕ → K) (d₁ d₂ d₃ : DT) (s : List ℕ) (cells : List K) (f r : K)
    (hr : Post.emittanceFractional cells (tab n t) (tab m e) f = .ok r) :
    PostD.emittanceFractional f [.arr ⟨d₁, s, cells⟩, .arr ⟨d₂, [n], tab n t⟩, .arr ⟨d₃, [m], tab m e⟩]
      = .ok (.np (promoteMul .i64 (promoteMul d₂ d₃)) r) := by
  unfold Post.emittanceFractional at hr
  unfold PostD.emittanceFractional
  rw [dispatch_hit _ _ rfl]
  unfold emittanceFractionalArr
  obtain ⟨_, h1, hr⟩ := (bind_ok_iff).mp hr
  obtain ⟨_, h2, hr⟩ := (bind_ok_iff).mp hr
  obtain ⟨h, h3, hr⟩ := (bind_ok_iff).mp hr
  obtain ⟨c, h4, hr⟩ := (bind_ok_iff).mp hr
  rw [npGet_one t hn, bind_ok, npGet_zero t hn, bind_ok, npGet_one e hm, bind_ok, npGet_zero e hm, bind_ok] at hr
  dsimp only
  rw [h1, bind_ok, h2, bind_ok, h3, bind_ok]
  rw [h4, bind_ok, width_eq d₂ t hn, bind_ok, width_eq d₃ e hm, bind_ok]
  cases hr
  rfl

/-- C99: for a phase space of non-negative densities, not all zero, on one-dimensional axes of at least two bins, double precision
somewhere along each axis, and a beam energy above the rest mass, `post_process` returns the rms emittance of the two projections,
the 90 % emittance of the cells and the momentum spread of the energy projection. -/
theorem C99_values_partial (L : MathLib K) (hsq : ∀ x, 0 ≤ x → 0 ≤ L.sqrt x ∧ L.sqrt x ^ 2 = x) {n m : ℕ} (hn : 2 ≤ n) (hm : 2 ≤ m)
    (p : ℕ → ℕ → K) (hp : ∀ i j, 0 ≤ p i j) (hS : 0 < ∑ i ∈ range n, ∑ j ∈ range m, p i j) (t e : ℕ → K) (d₁ d₂ d₃ : DT)
    (h12 : ¬ (d₁ = .f32 ∧ d₂ = .f32)) (h13 : ¬ (d₁ = .f32 ∧ d₃ = .f32)) (energy mass : Val K) {E M : K}
    (hE : energy.num? = some E) (hM : mass.num? = some M) (hM0 : 0 ≤ M) (hME : M < E) :
    ∃ σt σe ε r, Post.stdFromHistogram L (tab n fun i => ∑ j ∈ range m, p i j) (tab n t) = .ok σt ∧
      Post.stdFromHistogram L (tab m fun j => ∑ i ∈ range n, p i j) (tab m e) = .ok σe ∧
      Post.emittance90 (flat n m p) (tab n t) (tab m e) = .ok ε ∧ Post.rmsDpp L σe E M = .ok r ∧
      ∃ d, postProcess L (.arr ⟨d₁, [n, m], flat n m p⟩) (.arr ⟨d₂, [n], tab n t⟩) (.arr ⟨d₃, [m], tab m e⟩) energy mass
        = .ok ⟨.np .f64 (L.pi * σt * σe), .np d ε, .np .f64 r⟩ := by
  have hS' : 0 < ∑ j ∈ range m, ∑ i ∈ range n, p i j := by rw [Finset.sum_comm]; exact hS
  have ht := Post.std_eq L hn (fun i => ∑ j ∈ range m, p i j) t hS (fun i _ => Finset.sum_nonneg fun j _ => hp i j)
  have he := Post.std_eq L hm (fun j => ∑ i ∈ range n, p i j) e hS' (fun j _ => Finset.sum_nonneg fun i _ => hp i j)
  have hpos : ∀ v ∈ flat n m p, 0 ≤ v := by
    intro v hv
    obtain ⟨k, -, rfl⟩ := List.mem_map.mp hv
    exact hp _ _
  have hsum : 0 < (flat n m p).sum := by rw [sum_flat]; exact hS
  obtain ⟨k, -, -, hε⟩ := C41_cells_partial hn hm t e (flat n m p) hpos hsum 90 (by norm_num) (by norm_num)
  set σt := L.sqrt _ with hσt
  have hst := ht
  set σe := L.sqrt ((∑ j ∈ range m, (∑ i ∈ range n, p i j) *
      ((e j + (e 1 - e 0) / 2) * (1 - (∑ i ∈ range n, p i j) / ∑ j ∈ range m, ∑ i ∈ range n, p i j)) ^ 2) /
      ∑ j ∈ range m, ∑ i ∈ range n, p i j) with hσe
  have hσe0 : 0 ≤ σe := by
    apply (hsq _ _).1
    apply div_nonneg _ hS'.le
    apply Finset.sum_nonneg
    intro j _
    exact mul_nonneg (Finset.sum_nonneg fun i _ => hp i j) (sq_nonneg _)
  obtain ⟨_, r, _, _, hr, _, _⟩ := C59_momentum_spread L hsq σe E M hσe0 hM0 hME
  refine ⟨_, σe, _, r, ht, he, hε, hr, promoteMul .i64 (promoteMul d₂ d₃), ?_⟩
  have hpt : promote d₁ d₂ = .f64 := by
    cases d₁ <;> cases d₂ <;> first | rfl | exact absurd ⟨rfl, rfl⟩ h12
  have hpe : promote d₁ d₃ = .f64 := by
    cases d₁ <;> cases d₃ <;> first | rfl | exact absurd ⟨rfl, rfl⟩ h13
  have hnum : ∀ {v : Val K} {x : K}, v.num? = some x → isInst v .number = true := by
    intro v x h
    cases v with
    | np dt v => cases dt <;> rfl
    | int v => rfl
    | float v => rfl
    | _ => simp [Val.num?] at h
  have s1 : sumVal (.arr ⟨d₁, [n, m], flat n m p⟩) 1 = .ok (.arr ⟨d₁, [n], tab n fun i => ∑ j ∈ range m, p i j⟩) := by
    unfold sumVal
    dsimp only
    rw [sumAxis_one, bind_ok]
    rfl
  have s0 : sumVal (.arr ⟨d₁, [n, m], flat n m p⟩) 0 = .ok (.arr ⟨d₁, [m], tab m fun j => ∑ i ∈ range n, p i j⟩) := by
    unfold sumVal
    dsimp only
    rw [sumAxis_zero, bind_ok]
    rfl
  unfold postProcess
  rw [s1, bind_ok, s0, bind_ok]
  unfold stdVal
  dsimp only
  rw [numel_ok, bind_ok, ht, bind_ok, pure_eq_ok, bind_ok, numel_ok, bind_ok, he, bind_ok, pure_eq_ok, bind_ok, hpt, hpe, pd_rms2]
  unfold emittanceRms2
  rw [dispatch_hit _ _ rfl]
  unfold emittanceRmsFloat
  dsimp only [Val.num?]
  rw [bind_ok]
  unfold PostD.emittance90
  rw [fractional_eq hn hm t e d₁ d₂ d₃ [n, m] _ 90 _ hε, bind_ok, pd_dpp3]
  unfold rmsDpp3
  rw [dispatch_hit _ _ (by rw [fits, fits, fits, fits, hnum hE, hnum hM]; rfl)]
  unfold rmsDppNum
  dsimp only
  rw [hE, hM]
  dsimp only [Val.num?]
  rw [hr]
  rfl

/-- C99: the axes and the image that `phase_space_from_coordinates` makes out of a reconstruction on the CPU, in either precision,
always have a summary: coordinates inside the image, weights that are not negative and not all zero, at least two bins. -/
theorem C99_of_reconstruction_partial (L : MathLib K) (hsq : ∀ x, 0 ≤ x → 0 ≤ L.sqrt x ∧ L.sqrt x ^ 2 = x) {n nbins : ℕ} (hb : 2 ≤ nbins)
    {x y : ℕ → ℕ} (hx : ∀ i, i < n → x i < nbins) (hy : ∀ i, i < n → y i < nbins) (w : ℕ → K) (hw : ∀ i, 0 ≤ w i)
    (hS : 0 < ∑ i ∈ range n, w i) (synchX synchY dtbin dEbin : K) (d : DT) (energy mass : Val K) {E M : K}
    (hE : energy.num? = some E) (hM : mass.num? = some M) (hM0 : 0 ≤ M) (hME : M < E) :
    ∃ t e img, Img.phaseSpaceFromCoordinates (tab n fun i => (x i : ℤ)) (tab n fun i => (y i : ℤ)) (tab n w) nbins synchX synchY
        dtbin dEbin = .ok (t, e, img) ∧
      ∃ out, postProcess L (.arr ⟨d, [nbins, nbins], img⟩) (.arr ⟨.f64, [nbins], t⟩) (.arr ⟨.f64, [nbins], e⟩) energy mass
        = .ok out := by
  have hc := C30_cells hx hy w
  refine ⟨Img.axis nbins synchX dtbin, Img.axis nbins synchY dEbin,
    flat nbins nbins fun a b => ∑ i ∈ (range n).filter (fun i => x i = a ∧ y i = b), w i, ?_, ?_⟩
  · unfold Img.phaseSpaceFromCoordinates
    rw [hc, bind_ok]
    rfl
  · have htot := (C30_conserves_weight _ _ w hc).2
    rw [sum_flat] at htot
    obtain ⟨σt, σe, ε, r, -, -, -, -, d', h⟩ := C99_values_partial L hsq hb hb
      (fun a b => ∑ i ∈ (range n).filter (fun i => x i = a ∧ y i = b), w i) (fun a b => Finset.sum_nonneg fun i _ => hw i)
      (by rw [htot]; exact hS) (fun k => ((k : K) - synchX) * dtbin) (fun k => ((k : K) - synchY) * dEbin) d .f64 .f64
      (by simp) (by simp) energy mass hE hM hM0 hME
    exact ⟨_, h⟩

/-- an axis without two bins along its first dimension -/
def Short (b : Nd K) : Prop := ∀ n rest, b.shape = n :: rest → n < 2

theorem width_short {b : Nd K} (hb : Short b) : width b = .error (.exc .indexError) := by
  unfold width
  rcases hs : b.shape with _ | ⟨n, rest⟩
  · rfl
  · dsimp only
    rw [if_pos (hb n rest hs)]

/-- C99: an emittance needs two bins along both axes; with fewer there is no result, whatever the densities and the fraction. -/
theorem C99_few_bins (f : K) (h t e : Nd K) (hb : Short t ∨ Short e) :
    ∀ v, PostD.emittanceFractional f [.arr h, .arr t, .arr e] ≠ .ok v := by
  intro v hv
  unfold PostD.emittanceFractional at hv
  rw [dispatch_hit _ _ rfl] at hv
  unfold emittanceFractionalArr at hv
  obtain ⟨_, -, hv⟩ := (bind_ok_iff).mp hv
  obtain ⟨_, -, hv⟩ := (bind_ok_iff).mp hv
  obtain ⟨_, -, hv⟩ := (bind_ok_iff).mp hv
  obtain ⟨_, -, hv⟩ := (bind_ok_iff).mp hv
  obtain ⟨a, ha, hv⟩ := (bind_ok_iff).mp hv
  obtain ⟨b, hb', hv⟩ := (bind_ok_iff).mp hv
  rcases hb with h1 | h1
  · rw [width_short h1] at ha
    cases ha
  · rw [width_short h1] at hb'
    cases hb'

example : Short (⟨.f64, [1, 3], [0, 2, 4]⟩ : Nd ℚ) ∧ Short (⟨.f64, [], [0]⟩ : Nd ℚ) := ⟨by rintro _ _ ⟨⟩; decide, by rintro _ _ ⟨⟩⟩

/-- two by two cells -/
def smallPs : Nd ℚ := ⟨.f64, [2, 2], [1, 2, 0, 1]⟩

/-- the sum over either axis and the fractional emittance, computed; the hypotheses of `C99_values_partial` hold for these cells -/
example : sumAxis smallPs 1 = .ok ⟨.f64, [2], [3, 1]⟩ ∧ sumAxis smallPs 0 = .ok ⟨.f64, [2], [1, 3]⟩ ∧
    PostD.emittanceFractional 75 [.arr smallPs, .arr ⟨.f64, [2], [0, 2]⟩, .arr ⟨.i64, [2], [0, 3]⟩] = .ok (.np .f64 6) ∧
    PostD.emittanceFractional 75 [.arr smallPs, .arr ⟨.f64, [2, 1], [0, 2]⟩, .arr ⟨.i64, [2], [0, 3]⟩] = .ok (.arr ⟨.f64, [1], [6]⟩) ∧
    PostD.emittanceFractional 75 [.arr smallPs, .arr ⟨.f64, [1, 2], [0, 2]⟩, .arr ⟨.i64, [2], [0, 3]⟩] = .error (.exc .indexError) :=
  ⟨by decide +kernel, by decide +kernel, by decide +kernel, by decide +kernel, by decide +kernel⟩

/-- the summary of the cells of `smallPs`, in arithmetic where roots are identities -/
def idLib : MathLib ℚ := ⟨id, id, id, 3, 1, fun _ _ _ => none⟩

/-- the three numbers; the same with integer densities; not with single precision, lists or two-dimensional bins -/
example : postProcess idLib (.arr smallPs) (.arr ⟨.f64, [2], [0, 1]⟩) (.arr ⟨.f64, [2], [0, 1]⟩) (.float 5) (.int 3) =
      postProcess idLib (.arr { smallPs with dt := .i64 }) (.arr ⟨.f64, [2], [0, 1]⟩) (.arr ⟨.f32, [2], [0, 1]⟩) (.float 5) (.int 3) ∧
    postProcess idLib (.arr smallPs) (.arr ⟨.f64, [2], [0, 1]⟩) (.arr ⟨.f64, [2], [0, 1]⟩) (.float 5) (.int 3) =
      .ok ⟨.np .f64 (567 / 4096), .np .f64 2, .np .f64 (5841 / 65536)⟩ ∧
    postProcess idLib (.arr { smallPs with dt := .f32 }) (.arr ⟨.f32, [2], [0, 1]⟩) (.arr ⟨.f32, [2], [0, 1]⟩) (.float 5) (.int 3) =
      .error (.exc .runtimeError) ∧
    postProcess idLib (.arr smallPs) (.arr ⟨.f64, [2, 1], [0, 1]⟩) (.arr ⟨.f64, [2], [0, 1]⟩) (.float 5) (.int 3) =
      .error (.exc .unequalArrayShapes) ∧
    postProcess idLib .other (.arr ⟨.f64, [2], [0, 1]⟩) (.arr ⟨.f64, [2], [0, 1]⟩) (.float 5) (.int 3) = .error (.exc .attributeError) :=
  ⟨by decide +kernel, by decide +kernel, by decide +kernel, by decide +kernel, by decide +kernel⟩

end values

end Verif.Props
