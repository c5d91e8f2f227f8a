import Verif.Lemmas.Assertions
import Verif.Props.Tracking

/-!
# Properties of the assertion helpers (C36–C38)
-/

set_option linter.unusedSectionVars false

namespace Verif.Props
open Verif.Spec Verif.Asrt Verif.Track

/-! ## C36 -/

/-- C36: `assert_index_ok` accepts exactly the indices `0 ≤ i < limit`, unchanged, and with wrap-around also
`-limit ≤ i < 0`, shifted by `limit`. -/
theorem C36_accepts_iff (i limit : Int) (wrap : Bool) (r : Int) :
    assertIndexOk i limit wrap = .ok r ↔
      (0 ≤ i ∧ i < limit ∧ r = i) ∨ (wrap = true ∧ i < 0 ∧ -limit ≤ i ∧ r = i + limit) := by
  unfold assertIndexOk
  by_cases h0 : i < 0
  · rw [if_pos h0]
    cases wrap
    · simp; omega
    · by_cases h1 : limit + i < 0
      · simp only [Bool.not_true, Bool.false_eq_true, if_false, if_pos h1]
        simp; omega
      · simp only [Bool.not_true, Bool.false_eq_true, if_false, if_neg h1]
        simp; omega
  · rw [if_neg h0]
    by_cases h1 : i ≥ limit
    · rw [if_pos h1]; simp; omega
    · rw [if_neg h1]; simp; omega

/-- C36: what is accepted is a position of the array and denotes the same element modulo `limit`. -/
theorem C36_result (i limit : Int) (wrap : Bool) (r : Int) (h : assertIndexOk i limit wrap = .ok r) :
    0 ≤ r ∧ r < limit ∧ r % limit = i % limit := by
  rcases (C36_accepts_iff i limit wrap r).mp h with ⟨h1, h2, rfl⟩ | ⟨_, h1, h2, rfl⟩
  · exact ⟨h1, h2, rfl⟩
  · exact ⟨by omega, by omega, by simp⟩

/-- C36: the exceptions: NegativeIndexError exactly for a negative index without wrap-around, IndexError otherwise. -/
theorem C36_rejects (i limit : Int) (wrap : Bool) (e : Exn) :
    assertIndexOk i limit wrap = .error e ↔
      (i < 0 ∧ wrap = false ∧ e = .negativeIndexError) ∨
      (i < 0 ∧ wrap = true ∧ i < -limit ∧ e = .indexError) ∨ (0 ≤ i ∧ limit ≤ i ∧ e = .indexError) := by
  unfold assertIndexOk
  by_cases h0 : i < 0
  · rw [if_pos h0]
    have h0' : ¬ 0 ≤ i := by omega
    cases wrap
    · simp [h0, h0', eq_comm]
    · by_cases h1 : limit + i < 0
      · have h1' : i < -limit := by omega
        simp [h1, h1', h0, h0', eq_comm]
      · have h1' : ¬ i < -limit := by omega
        simp [h1, h1', h0']
  · rw [if_neg h0]
    have h0' : 0 ≤ i := by omega
    by_cases h1 : i ≥ limit
    · rw [if_pos h1]
      have h1' : limit ≤ i := h1
      simp [h0, h0', h1', eq_comm]
    · rw [if_neg h1]
      have h1' : ¬ limit ≤ i := h1
      simp [h0, h1']

example : assertIndexOk (-3) 10 true = .ok 7 ∧ assertIndexOk (-3) 10 false = .error .negativeIndexError
    ∧ assertIndexOk 10 10 true = .error .indexError ∧ assertIndexOk (-11) 10 true = .error .indexError := by decide

/-! ## C37 -/

/-- `x` returns normally exactly when `P` holds, and raises `e` exactly when it does not. -/
def Decides (x : M Unit) (P : Prop) (e : Exn) : Prop := (x = .ok () ↔ P) ∧ (x = .error (.exc e) ↔ ¬ P)

theorem Decides.of {x : M Unit} {P : Prop} {e : Exn} (h : Checks x P e) : Decides x P e :=
  ⟨h.ok_iff, by rw [h.error_iff]; simp⟩

/-- C37, scalars, `_partial`: for ordered numbers (no NaN) each helper decides its documented relation. -/
theorem C37_scalars_partial {K : Type} [LinearOrder K] (v limit low up : K) (e : Exn) :
    Decides (assertGreater v limit e) (v > limit) e ∧
    Decides (assertLess v limit e) (v < limit) e ∧
    Decides (assertEqual v limit e) (v = limit) e ∧
    Decides (assertNotEqual v limit e) (v ≠ limit) e ∧
    Decides (assertLessOrEqual v limit e) (v ≤ limit) e ∧
    Decides (assertGreaterOrEqual v limit e) (v ≥ limit) e ∧
    Decides (assertInrange v low up e) (v ∈ Set.Icc low up) e :=
  ⟨.of (assertGreater_checks _ _ _), .of (assertLess_checks _ _ _), .of (assertEqual_checks _ _ _),
    .of (assertNotEqual_checks _ _ _), .of (assertLessOrEqual_checks _ _ _), .of (assertGreaterOrEqual_checks _ _ _),
    .of (assertInrange_checks _ _ _ _)⟩

/-- C37, arrays of any length, `_partial` (no NaN). -/
theorem C37_arrays_partial {K : Type} [LinearOrder K] (a : List K) (limit low up : K) (e : Exn) :
    Decides (assertArrayGreater a limit e) (∀ x ∈ a, x > limit) e ∧
    Decides (assertArrayGreaterEq a limit e) (∀ x ∈ a, x ≥ limit) e ∧
    Decides (assertArrayLess a limit e) (∀ x ∈ a, x < limit) e ∧
    Decides (assertArrayLessEq a limit e) (∀ x ∈ a, x ≤ limit) e ∧
    Decides (assertArrayInRange a low up e) (∀ x ∈ a, x ∈ Set.Icc low up) e := by
  refine ⟨.of ((assertLogArr_checks a _ e).congr ?_), .of ((assertLogArr_checks a _ e).congr ?_),
    .of ((assertLogArr_checks a _ e).congr ?_), .of ((assertLogArr_checks a _ e).congr ?_),
    .of ((assertLogArr_checks a _ e).congr ?_)⟩ <;>
  · refine forall₂_congr fun x _ => ?_
    simp

/-- C37: "not all elements equal the limit", for non-empty arrays. -/
theorem C37_array_not_equal_partial {K : Type} [LinearOrder K] (a : List K) (limit : K) (e : Exn) (ha : a ≠ []) :
    Decides (assertArrayNotEqual a limit e) (∃ x ∈ a, x ≠ limit) e := by
  have h : (a.all fun x => numEq x limit) = true ↔ ¬ ∃ x ∈ a, x ≠ limit := by
    rw [List.all_eq_true]
    push Not
    exact forall₂_congr fun x _ => numEq_iff x limit
  refine .of ⟨fun hp => ?_, fun hp => ?_⟩
  · unfold assertArrayNotEqual
    rw [if_neg (fun hc => h.mp hc hp)]
  · unfold assertArrayNotEqual
    rw [if_pos (h.mpr hp)]
    cases a with
    | nil => exact absurd rfl ha
    | cons x l => rfl

/-- C37: shapes: accepted exactly when at least two arrays are given and all have the demanded shape;
UnequalArrayShapes when one differs. -/
theorem C37_shapes (shapes : List (List ℕ)) (demanded : List ℕ) (hl : 2 ≤ shapes.length) :
    Decides (assertArrayShapeEqual shapes demanded) (∀ s ∈ shapes, s = demanded) .unequalArrayShapes := by
  have h2 : assertGreaterOrEqual (shapes.length : Int) 2 .assertionError = .ok () :=
    (assertGreaterOrEqual_checks _ _ _).1 (by omega)
  unfold assertArrayShapeEqual
  rw [h2, bind_ok]
  refine .of (checks_if ?_)
  rw [List.any_eq_true]
  push Not
  refine exists_congr fun s => and_congr_right fun _ => ?_
  rw [bne_iff_ne]
  exact ne_comm

/-- C37: number of elements: the arrays must be one-dimensional with that many elements. -/
theorem C37_numel (shapes : List (List ℕ)) (n : ℕ) (hl : 2 ≤ shapes.length) :
    Decides (assertArrayNumelEqual shapes n) (∀ s ∈ shapes, s = [n]) .unequalArrayShapes :=
  C37_shapes shapes [n] hl

theorem C37_shapes_needs_two (shapes : List (List ℕ)) (demanded : List ℕ) (hl : shapes.length < 2) :
    assertArrayShapeEqual shapes demanded = .error (.exc .assertionError) := by
  unfold assertArrayShapeEqual
  rw [(assertGreaterOrEqual_checks (shapes.length : Int) 2 .assertionError).2 (by omega)]
  rfl

/-- C37: `assert_only_valid_particles` accepts exactly the clouds inside the image, `_partial` (no NaN). -/
theorem C37_valid_particles_partial {K : Type} [LinearOrder K] [Zero K] (xp : List K) (nBins : K) :
    Decides (assertOnlyValidParticles xp nBins 0) (∀ x ∈ xp, 0 ≤ x ∧ x < nBins) .invalidParticle := by
  refine .of (checks_if ?_)
  rw [List.any_eq_true]
  push Not
  refine exists_congr fun x => and_congr_right fun _ => ?_
  rw [Bool.or_eq_true, decide_eq_true_iff, decide_eq_true_iff]
  constructor
  · rintro (h | h)
    · exact fun _ => h
    · exact fun h' => absurd h' (not_le.mpr h)
  · intro h
    by_cases h0 : 0 ≤ x
    · exact Or.inl (h h0)
    · exact Or.inr (not_le.mp h0)

/-- C37: all named attributes are present and not `None`. -/
theorem C37_fields {β : Type} (lookup : String → Option β) (needed : List String) (e : Exn) :
    Decides (assertFields lookup needed e) (∀ f ∈ needed, (lookup f).isSome) e := by
  induction needed with
  | nil => exact .of ⟨fun _ => rfl, fun h => absurd (by simp) h⟩
  | cons f fs ih =>
    unfold assertFields
    cases hf : lookup f with
    | none => exact .of ⟨fun h => by have := h f (by simp); rw [hf] at this; simp at this, fun _ => rfl⟩
    | some x =>
      dsimp only
      constructor
      · rw [ih.1]; simp [hf]
      · rw [ih.2]; simp [hf]

/-- C37 fails for NaN: NaN is neither greater than 0, nor less, nor in a range, yet every order check accepts it, for
scalars and inside arrays, and a NaN coordinate is a "valid particle". -/
theorem C37_violated_nan (e : Exn) :
    assertGreater Fl.nan 0 e = .ok () ∧ ¬ (0 < Fl.nan) ∧
    assertGreaterOrEqual Fl.nan 0 e = .ok () ∧ ¬ (0 ≤ Fl.nan) ∧
    assertInrange Fl.nan 0 1 e = .ok () ∧
    assertArrayGreater [1, Fl.nan] 0 e = .ok () ∧
    assertOnlyValidParticles [Fl.nan] (Fl.fin 10) 0 = .ok () := by
  exact ⟨if_neg (by decide), by decide, if_neg (by decide), by decide, if_neg (by decide), by cases e <;> decide, by decide⟩

/-- C37 fails for an empty array: `assert_array_not_equal` raises IndexError while writing its message. -/
theorem C37_violated_empty {K : Type} [LinearOrder K] (limit : K) (e : Exn) :
    assertArrayNotEqual [] limit e = .error (.exc .indexError) := rfl

example : Decides (assertArrayGreater [(1 : ℚ), -2] 0 .inputError) (∀ x ∈ [(1 : ℚ), -2], x > 0) .inputError ∧
    assertArrayGreater [(1 : ℚ), -2] 0 .inputError = .error (.exc .inputError) :=
  ⟨(C37_arrays_partial _ _ 0 0 _).1, by decide +kernel⟩

/-! ## C38 -/

section C38
variable {K : Type} [LinearOrder K] [Zero K]

theorem film_ok (start stop step : Option Int) (u : Unit) : assertFilm start stop step = .ok u ↔
    ∃ a b c, start = some a ∧ stop = some b ∧ step = some c ∧ 0 ≤ a ∧ a ≤ b ∧ c ≠ 0 ∧ |c| ≤ b - a + 1 := by
  unfold assertFilm
  rcases start with _ | a <;> rcases stop with _ | b <;> rcases step with _ | c <;> try (simp [raise]; done)
  simp only [bind_ok_iff, (assertGreaterOrEqual_checks _ _ _).ok_iff, (assertLessOrEqual_checks _ _ _).ok_iff,
    (assertNotEqual_checks _ _ _).ok_iff]
  simp only [exists_const, Option.some.injEq]
  constructor
  · rintro ⟨h1, h2, h3, h4⟩
    refine ⟨a, b, c, rfl, rfl, rfl, h1, h2, h4, ?_⟩
    rwa [abs_of_nonneg (a := b - a + 1) (by omega)] at h3
  · rintro ⟨_, _, _, rfl, rfl, rfl, h1, h2, h4, h3⟩
    exact ⟨h1, h2, by rwa [abs_of_nonneg (a := b - a + 1) (by omega)], h4⟩

theorem spaceCharge_ok (v : Option K) (u : Unit) : assertSpaceCharge v = .ok u ↔ ∀ x, v = some x → 0 ≤ x := by
  cases v with
  | none => simp [assertSpaceCharge]
  | some y =>
    unfold assertSpaceCharge
    rw [(assertGreaterOrEqual_checks _ _ _).ok_iff]
    simp

/-- C38: `assert_machine_input` accepts exactly the machines with all required parameters present and in the documented
region. -/
theorem C38_accepts_iff (a : MachineArgs K) :
    (∃ p, assertMachineInput a = .ok p) ↔ ValidMachine a ∧ ValidSpaceCharge a := by
  unfold assertMachineInput
  simp only [bind_ok_iff, notNone_ok, (assertGreaterOrEqual_checks _ _ _).ok_iff, (assertGreater_checks _ _ _).ok_iff,
    film_ok, spaceCharge_ok, exists_const]
  constructor
  · rintro ⟨p, x1, e1, h1, x2, e2, h2, hf, x3, e3, h3, x4, e4, h4, x5, e5, h5, x6, e6, h6, x7, e7, h7, x8, e8, h8, x9, e9,
      h9, x10, e10, h10, x11, e11, h11, x12, e12, h12, s1, s2, _⟩
    exact ⟨⟨⟨_, e1, h1⟩, ⟨_, e2, h2⟩, hf, ⟨_, e3, h3⟩, ⟨_, e4, h4⟩, ⟨_, e5, h5⟩, ⟨_, e6, h6⟩, ⟨_, e7, h7⟩, ⟨_, e8, h8⟩,
      ⟨_, e9, h9⟩, ⟨_, e10, h10⟩, ⟨_, e11, h11⟩, ⟨_, e12, h12⟩⟩, s1, s2⟩
  · rintro ⟨⟨⟨_, e1, h1⟩, ⟨_, e2, h2⟩, hf, ⟨_, e3, h3⟩, ⟨_, e4, h4⟩, ⟨_, e5, h5⟩, ⟨_, e6, h6⟩, ⟨_, e7, h7⟩, ⟨_, e8, h8⟩,
      ⟨_, e9, h9⟩, ⟨_, e10, h10⟩, ⟨_, e11, h11⟩, ⟨_, e12, h12⟩⟩, s1, s2⟩
    exact ⟨_, _, e1, h1, _, e2, h2, hf, _, e3, h3, _, e4, h4, _, e5, h5, _, e6, h6, _, e7, h7, _, e8, h8, _, e9, h9, _, e10,
      h10, _, e11, h11, _, e12, h12, s1, s2, rfl⟩

theorem film_error (start stop step : Option Int) (f : Fault) (h : assertFilm start stop step = .error f) :
    f = .exc .machineParameterError := by
  unfold assertFilm at h
  rcases start with _ | a <;> rcases stop with _ | b <;> rcases step with _ | c <;>
    try (simp only [raise, Except.error.injEq] at h; exact h.symm)
  simp only [bind_error_iff, (assertGreaterOrEqual_checks _ _ _).error_iff, (assertLessOrEqual_checks _ _ _).error_iff,
    (assertNotEqual_checks _ _ _).error_iff] at h
  rcases h with h | ⟨_, _, h | ⟨_, _, h | ⟨_, _, h⟩⟩⟩ <;> exact h.2

theorem spaceCharge_error (v : Option K) (f : Fault) (h : assertSpaceCharge v = .error f) :
    f = .exc .spaceChargeParameterError := by
  cases v with
  | none => cases h
  | some y =>
    unfold assertSpaceCharge at h
    exact ((assertGreaterOrEqual_checks _ _ _).error_iff.mp h).2

/-- C38: every rejection is a MachineParameterError, except that a machine whose only fault is a negative pick-up
sensitivity or coupling gets SpaceChargeParameterError. -/
theorem C38_rejection (a : MachineArgs K) (f : Fault) (h : assertMachineInput a = .error f) :
    (f = .exc .machineParameterError ∧ ¬ ValidMachine a) ∨
    (f = .exc .spaceChargeParameterError ∧ ValidMachine a ∧ ¬ ValidSpaceCharge a) := by
  have hno : ¬ (ValidMachine a ∧ ValidSpaceCharge a) := by
    intro hv
    obtain ⟨p, hp⟩ := (C38_accepts_iff a).mpr hv
    rw [hp] at h; cases h
  by_cases hV : ValidMachine a
  · right
    have hS : ¬ ValidSpaceCharge a := fun hs => hno ⟨hV, hs⟩
    refine ⟨?_, hV, hS⟩
    obtain ⟨⟨_, e1, h1⟩, ⟨_, e2, h2⟩, hf, ⟨_, e3, h3⟩, ⟨_, e4, h4⟩, ⟨_, e5, h5⟩, ⟨_, e6, h6⟩, ⟨_, e7, h7⟩, ⟨_, e8, h8⟩,
      ⟨_, e9, h9⟩, ⟨_, e10, h10⟩, ⟨_, e11, h11⟩, ⟨_, e12, h12⟩⟩ := hV
    have hf' : assertFilm a.filmstart a.filmstop a.filmstep = .ok () := (film_ok _ _ _ _).mpr hf
    unfold assertMachineInput at h
    simp only [e1, e2, e3, e4, e5, e6, e7, e8, e9, e10, e11, e12, hf', notNone, bind_ok,
      (assertGreater_checks _ _ _).1 h1, (assertGreater_checks _ _ _).1 h2, (assertGreater_checks _ _ _).1 h3,
      (assertGreater_checks _ _ _).1 h4, (assertGreaterOrEqual_checks _ _ _).1 h5,
      (assertGreaterOrEqual_checks _ _ _).1 h6, (assertGreater_checks _ _ _).1 h7,
      (assertGreaterOrEqual_checks _ _ _).1 h8, (assertGreater_checks _ _ _).1 h9,
      (assertGreater_checks _ _ _).1 h10, (assertGreater_checks _ _ _).1 h11, (assertGreater_checks _ _ _).1 h12] at h
    rw [bind_error_iff] at h
    rcases h with h | ⟨_, _, h⟩
    · exact spaceCharge_error _ _ h
    · rw [bind_error_iff] at h
      rcases h with h | ⟨_, _, h⟩
      · exact spaceCharge_error _ _ h
      · cases h
  · left
    refine ⟨?_, hV⟩
    by_contra hne
    unfold assertMachineInput at h
    simp only [bind_error_iff, notNone_error, notNone_ok, (assertGreaterOrEqual_checks _ _ _).ok_iff,
      (assertGreaterOrEqual_checks _ _ _).error_iff, (assertGreater_checks _ _ _).ok_iff,
      (assertGreater_checks _ _ _).error_iff, hne, and_false, false_or, exists_const, film_ok] at h
    obtain ⟨x1, e1, h1, x2, e2, h2, h⟩ := h
    rcases h with h | ⟨hf, x3, e3, h3, x4, e4, h4, x5, e5, h5, x6, e6, h6, x7, e7, h7, x8, e8, h8, x9, e9,
      h9, x10, e10, h10, x11, e11, h11, x12, e12, h12, _⟩
    · exact hne (film_error _ _ _ _ h)
    · exact hV ⟨⟨_, e1, h1⟩, ⟨_, e2, h2⟩, hf, ⟨_, e3, h3⟩, ⟨_, e4, h4⟩, ⟨_, e5, h5⟩, ⟨_, e6, h6⟩, ⟨_, e7, h7⟩, ⟨_, e8, h8⟩,
        ⟨_, e9, h9⟩, ⟨_, e10, h10⟩, ⟨_, e11, h11⟩, ⟨_, e12, h12⟩⟩

end C38
end Verif.Props
