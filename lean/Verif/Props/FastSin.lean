import Verif.Lemmas.FastSin
import Verif.Spec.FastSin
import Verif.Props.Tracking

/-!
# Properties of the sine of the C++ tracking (C83, C84)
-/

namespace Verif.Props
open Verif.Vdt Verif.Spec Verif.Track

/-! ## C83 -/

/-- C83: the sine of the C++ tracking is the sine to within `2e-17 + 2e-20 |x|`, in exact arithmetic, as is its cosine. -/
theorem C83_accuracy (x : ℝ) (hx : |x| ≤ 10 ^ 9) :
    |fastSin x - Real.sin x| ≤ 2 / 10 ^ 17 + 2 * |x| / 10 ^ 20 ∧
    |(fastSincos x).2 - Real.cos x| ≤ 2 / 10 ^ 17 + 2 * |x| / 10 ^ 20 := by
  have h := octants_bound sincos45 dp1 dp2 dp3 ((1 / 10 ^ 17 : ℚ) + 1 / 10 ^ 20) dp_sum
    (fun z hz => poly_bound sincos45 sinErr cosErr _ sinErr_check cosErr_check z hz (sincos45_eq z)) x (hx.trans (by norm_num))
  have hb : ((1 / 10 ^ 17 : ℚ) : ℝ) + 1 / 10 ^ 20 + (13 / 10 * |x| + 1) / 10 ^ 20 ≤ 2 / 10 ^ 17 + 2 * |x| / 10 ^ 20 := by
    push_cast
    have := abs_nonneg x
    ring_nf
    norm_num
    linarith
  exact ⟨h.1.trans hb, h.2.trans hb⟩

/-- C83, `_partial`: the single precision polynomials are the sine and cosine to within `6e-9 + 2e-20 |x|` in exact arithmetic.
Missing: the rounding of single precision numbers, which is larger. -/
theorem C83_single_partial (x : ℝ) (hx : |x| ≤ 10 ^ 9) :
    |fastSinF x - Real.sin x| ≤ 6 / 10 ^ 9 + 2 * |x| / 10 ^ 20 ∧
    |(fastSincosF x).2 - Real.cos x| ≤ 6 / 10 ^ 9 + 2 * |x| / 10 ^ 20 := by
  have h := octants_bound sincos45F dp1F dp2F dp3F ((5 / 10 ^ 9 : ℚ) + 1 / 10 ^ 20) dpF_sum
    (fun z hz => poly_bound sincos45F sinErrF cosErrF _ sinErrF_check cosErrF_check z hz (sincos45F_eq z)) x
    (hx.trans (by norm_num))
  have hb : ((5 / 10 ^ 9 : ℚ) : ℝ) + 1 / 10 ^ 20 + (13 / 10 * |x| + 1) / 10 ^ 20 ≤ 6 / 10 ^ 9 + 2 * |x| / 10 ^ 20 := by
    push_cast
    have := abs_nonneg x
    ring_nf
    norm_num
    linarith
  exact ⟨h.1.trans hb, h.2.trans hb⟩

/-- the sine of 1, computed -/
example : |fastSin (1 : ℚ) - 8414709848078965066525 / 10 ^ 22| < 1 / 10 ^ 17 := by decide +kernel
/-- a negative argument in another octant -/
example : |fastSin (-5 : ℚ) - 9589242746631384688931 / 10 ^ 22| < 1 / 10 ^ 17 := by decide +kernel

section
variable {K : Type} [Field K] [LinearOrder K] [IsStrictOrderedRing K] [FloorRing K]

/-- C83: the sine is odd, without any error, in both precisions. -/
theorem C83_odd (x : K) : fastSin (-x) = -fastSin x ∧ fastSinF (-x) = -fastSinF x := by
  have hq : quad (-x) = quad x := by unfold quad quad0; rw [abs_neg]
  have hr : ∀ d1 d2 d3 : K, reduce d1 d2 d3 (-x) = reduce d1 d2 d3 x := by
    intro d1 d2 d3
    unfold reduce
    rw [hq, abs_neg]
  have key : ∀ (sc : K → K × K) (z : K) (j : ℤ), (x = 0 → (octants sc z j (0 : K)).1 = 0) →
      (octants sc z j (-x)).1 = -(octants sc z j x).1 := by
    intro sc z j h0
    rcases lt_trichotomy x 0 with h | h | h
    · have h' : ¬ (-x < 0) := by simp [h.le]
      unfold octants
      simp only [if_pos h, if_neg h']
      ring
    · rw [h, neg_zero, h0 h, neg_zero]
    · have h' : -x < 0 := by simp [h]
      unfold octants
      simp only [if_neg (not_lt.2 h.le), if_pos h']
  have q0 : quad (0 : K) = 0 := by
    unfold quad quad0
    simp
  have r0 : ∀ d1 d2 d3 : K, reduce d1 d2 d3 0 = 0 := by
    intro d1 d2 d3
    unfold reduce
    rw [q0]
    simp
  have b1 : bit 2 0 = 0 := by decide
  have b3 : bit 1 (-2) = 1 := by decide
  constructor
  · unfold fastSin fastSincos
    rw [hr, hq]
    apply key
    intro h
    subst h
    rw [r0, q0]
    simp [octants, sincos45, b1, b3]
  · unfold fastSinF fastSincosF
    rw [hr, hq]
    apply key
    intro h
    subst h
    rw [r0, q0]
    simp [octants, sincos45F, b1, b3]

end

/-- C83: the sine stays in `[-1, 1]` up to the same error, and vanishes at zero. -/
theorem C83_range (x : ℝ) (hx : |x| ≤ 10 ^ 9) : |fastSin x| ≤ 1 + (2 / 10 ^ 17 + 2 * |x| / 10 ^ 20) ∧ fastSin (0 : ℝ) = 0 := by
  constructor
  · have h := (C83_accuracy x hx).1
    have := abs_sub_abs_le_abs_sub (fastSin x) (Real.sin x)
    have := Real.abs_sin_le_one x
    linarith
  · have := (C83_odd (0 : ℝ)).1
    rw [neg_zero] at this
    linarith

/-- C83: the octant fits into the 32 bit integer of the code for all arguments up to `10 ^ 9`. -/
theorem C83_int32 (x : ℝ) (hx : |x| ≤ 10 ^ 9) : 0 ≤ quad0 x ∧ quad0 x + 1 < 2 ^ 31 := by
  refine ⟨quad_nonneg x, ?_⟩
  have h1 : (quad0 x : ℝ) ≤ oneOPio4 * |x| := Int.floor_le _
  have ho : (oneOPio4 : ℝ) ≤ 13 / 10 := by norm_num [oneOPio4, mPi, dec]
  have : oneOPio4 * |x| ≤ 13 / 10 * 10 ^ 9 := mul_le_mul ho hx (abs_nonneg x) (by norm_num)
  have : (quad0 x : ℝ) < (2 ^ 31 - 1 : ℤ) := by push_cast; linarith
  have := Int.cast_lt.1 this
  omega

/-- C83 fails for large arguments: from about `1.69e9` on the octant does not fit into an `int`; the conversion is undefined in
C++.  A particle gets there when it slips in phase for long enough. -/
theorem C83_violated_large (x : ℝ) (hx : 17 * 10 ^ 8 ≤ |x|) : 2 ^ 31 ≤ quad0 x := by
  unfold quad0
  rw [Int.le_floor]
  have ho : (127 / 100 : ℝ) ≤ oneOPio4 := by norm_num [oneOPio4, mPi, dec]
  have : (127 / 100 : ℝ) * (17 * 10 ^ 8) ≤ oneOPio4 * |x| := mul_le_mul ho hx (by norm_num) (by linarith)
  push_cast
  norm_num at this ⊢
  linarith

/-! ## C84 -/

/-- difference of the gains -/
theorem gain_diff (sinA : ℝ → ℝ) (R : Program ℝ) (X ε : ℝ) (hs : ∀ u, |u| ≤ X → |sinA u - Real.sin u| ≤ ε) (t : ℕ) (φ ψ : ℝ)
    (h : ArgsAt R X t φ) :
    |gain sinA R t φ - gain Real.sin R t ψ| ≤ (|R.rf1 t| + |R.rf2 t| * |R.h|) * |φ - ψ| + (|R.rf1 t| + |R.rf2 t|) * ε := by
  have l1 := Real.abs_sin_sub_sin_le (φ + R.phi0 t) (ψ + R.phi0 t)
  have l2 := Real.abs_sin_sub_sin_le (R.h * (φ + R.phi0 t - R.phi12 t)) (R.h * (ψ + R.phi0 t - R.phi12 t))
  rw [show φ + R.phi0 t - (ψ + R.phi0 t) = φ - ψ by ring] at l1
  rw [show R.h * (φ + R.phi0 t - R.phi12 t) - R.h * (ψ + R.phi0 t - R.phi12 t) = R.h * (φ - ψ) by ring, abs_mul] at l2
  have a1 := (abs_sub_le _ _ _).trans (add_le_add (hs _ h.1) l1)
  have a2 := (abs_sub_le _ _ _).trans (add_le_add (hs _ h.2) l2)
  have e : gain sinA R t φ - gain Real.sin R t ψ
      = R.rf1 t * (sinA (φ + R.phi0 t) - Real.sin (ψ + R.phi0 t))
        + R.rf2 t * (sinA (R.h * (φ + R.phi0 t - R.phi12 t)) - Real.sin (R.h * (ψ + R.phi0 t - R.phi12 t))) := by
    unfold gain
    ring
  rw [e]
  refine (abs_add_le _ _).trans ?_
  rw [abs_mul, abs_mul]
  have b1 := mul_le_mul_of_nonneg_left a1 (abs_nonneg (R.rf1 t))
  have b2 := mul_le_mul_of_nonneg_left a2 (abs_nonneg (R.rf2 t))
  linarith

theorem up_diff (sinA : ℝ → ℝ) (R : Program ℝ) (X ε : ℝ) (hs : ∀ u, |u| ≤ X → |sinA u - Real.sin u| ≤ ε) (s : ℕ) (x : ℝ × ℝ) (k : ℕ)
    (h : ∀ j < k, ArgsAt R X (s + j + 1) (up sinA R s (j + 1) x).1) :
    |(up sinA R s k x).1 - (up Real.sin R s k x).1| ≤ ε * (errUp R s k).1 ∧
    |(up sinA R s k x).2 - (up Real.sin R s k x).2| ≤ ε * (errUp R s k).2 := by
  induction k with
  | zero => simp [up, errUp]
  | succ k ih =>
    obtain ⟨h1, h2⟩ := ih fun j hj => h j (by omega)
    have hk := h k (by omega)
    set A := up sinA R s k x with hA
    set B := up Real.sin R s k x with hB
    have eA : up sinA R s (k + 1) x = fwd sinA R (s + k) A := rfl
    have eB : up Real.sin R s (k + 1) x = fwd Real.sin R (s + k) B := rfl
    rw [eA] at hk ⊢
    rw [eB]
    have d1 : |(fwd sinA R (s + k) A).1 - (fwd Real.sin R (s + k) B).1| ≤ ε * (errUp R s (k + 1)).1 := by
      show |A.1 - R.coef (s + k) * A.2 - (B.1 - R.coef (s + k) * B.2)| ≤ ε * ((errUp R s k).1 + |R.coef (s + k)| * (errUp R s k).2)
      rw [show A.1 - R.coef (s + k) * A.2 - (B.1 - R.coef (s + k) * B.2) = (A.1 - B.1) + -(R.coef (s + k) * (A.2 - B.2)) by ring]
      refine (abs_add_le _ _).trans ?_
      rw [abs_neg, abs_mul]
      have := mul_le_mul_of_nonneg_left h2 (abs_nonneg (R.coef (s + k)))
      linarith
    refine ⟨d1, ?_⟩
    have g := gain_diff sinA R X ε hs (s + k + 1) (fwd sinA R (s + k) A).1 (fwd Real.sin R (s + k) B).1 hk
    show |A.2 + gain sinA R (s + k + 1) (fwd sinA R (s + k) A).1 - (B.2 + gain Real.sin R (s + k + 1) (fwd Real.sin R (s + k) B).1)|
      ≤ ε * ((errUp R s k).2 + (|R.rf1 (s + k + 1)| + |R.rf2 (s + k + 1)| * |R.h|) * (errUp R s (k + 1)).1
        + (|R.rf1 (s + k + 1)| + |R.rf2 (s + k + 1)|))
    rw [add_sub_add_comm]
    refine (abs_add_le _ _).trans ?_
    have := mul_le_mul_of_nonneg_left d1 (show 0 ≤ |R.rf1 (s + k + 1)| + |R.rf2 (s + k + 1)| * |R.h| by positivity)
    linarith

theorem down_diff (sinA : ℝ → ℝ) (R : Program ℝ) (X ε : ℝ) (hs : ∀ u, |u| ≤ X → |sinA u - Real.sin u| ≤ ε) (s : ℕ) (x : ℝ × ℝ)
    (k : ℕ) (h : ∀ j < k, ArgsAt R X (s - (j + 1) + 1) (down sinA R s j x).1) :
    |(down sinA R s k x).1 - (down Real.sin R s k x).1| ≤ ε * (errDown R s k).1 ∧
    |(down sinA R s k x).2 - (down Real.sin R s k x).2| ≤ ε * (errDown R s k).2 := by
  induction k with
  | zero => simp [down, errDown]
  | succ k ih =>
    obtain ⟨h1, h2⟩ := ih fun j hj => h j (by omega)
    have hk := h k (by omega)
    set A := down sinA R s k x with hA
    set B := down Real.sin R s k x with hB
    set t := s - (k + 1) with ht
    have eA : down sinA R s (k + 1) x = bwd sinA R t A := rfl
    have eB : down Real.sin R s (k + 1) x = bwd Real.sin R t B := rfl
    have eE : errDown R s (k + 1) = errBwd R t (errDown R s k) := rfl
    rw [eA, eB, eE]
    have g := gain_diff sinA R X ε hs (t + 1) A.1 B.1 hk
    have d2 : |(bwd sinA R t A).2 - (bwd Real.sin R t B).2| ≤ ε * (errBwd R t (errDown R s k)).2 := by
      show |A.2 - gain sinA R (t + 1) A.1 - (B.2 - gain Real.sin R (t + 1) B.1)|
        ≤ ε * ((errDown R s k).2 + (|R.rf1 (t + 1)| + |R.rf2 (t + 1)| * |R.h|) * (errDown R s k).1
          + (|R.rf1 (t + 1)| + |R.rf2 (t + 1)|))
      rw [show A.2 - gain sinA R (t + 1) A.1 - (B.2 - gain Real.sin R (t + 1) B.1)
        = (A.2 - B.2) + -(gain sinA R (t + 1) A.1 - gain Real.sin R (t + 1) B.1) by ring]
      refine (abs_add_le _ _).trans ?_
      rw [abs_neg]
      have := mul_le_mul_of_nonneg_left h1 (show 0 ≤ |R.rf1 (t + 1)| + |R.rf2 (t + 1)| * |R.h| by positivity)
      linarith
    refine ⟨?_, d2⟩
    show |A.1 + R.coef t * (bwd sinA R t A).2 - (B.1 + R.coef t * (bwd Real.sin R t B).2)|
      ≤ ε * ((errDown R s k).1 + |R.coef t| * (errBwd R t (errDown R s k)).2)
    rw [show A.1 + R.coef t * (bwd sinA R t A).2 - (B.1 + R.coef t * (bwd Real.sin R t B).2)
      = (A.1 - B.1) + R.coef t * ((bwd sinA R t A).2 - (bwd Real.sin R t B).2) by ring]
    refine (abs_add_le _ _).trans ?_
    rw [abs_mul]
    have := mul_le_mul_of_nonneg_left d2 (abs_nonneg (R.coef t))
    linarith

/-- the error of the sine of the code for arguments up to `X` -/
noncomputable def sinError (X : ℝ) : ℝ := 2 / 10 ^ 17 + 2 * X / 10 ^ 20

theorem transport_diff (R : Program ℝ) (X : ℝ) (hX : X ≤ 10 ^ 9) (s t : ℕ) (x : ℝ × ℝ) (h : ArgsWithin fastSin R X s t x) :
    |(transport fastSin R s t x).1 - (transport Real.sin R s t x).1| ≤ sinError X * (errTransport R s t).1 ∧
    |(transport fastSin R s t x).2 - (transport Real.sin R s t x).2| ≤ sinError X * (errTransport R s t).2 := by
  have hs : ∀ u : ℝ, |u| ≤ X → |fastSin u - Real.sin u| ≤ sinError X := by
    intro u hu
    refine ((C83_accuracy u (hu.trans hX)).1).trans ?_
    unfold sinError
    gcongr
  unfold ArgsWithin at h
  unfold transport errTransport
  split at h
  · rename_i hst
    rw [if_pos hst, if_pos hst, if_pos hst]
    exact up_diff fastSin R X _ hs s x _ h
  · rename_i hst
    rw [if_neg hst, if_neg hst, if_neg hst]
    exact down_diff fastSin R X _ hs s x _ h

/-- C84: the C++ tracking (with its own sine) and the CUDA tracking (with the exact sine) of the same particles differ at every
profile by at most the bound of `Spec.errTransport` times the error of the sine, in exact arithmetic. -/
theorem C84_cpu_gpu {m : Mach ℝ} {phi12 : ℝ} {R : Program ℝ} {P n d r block : ℕ} (hb : 0 < block) (hd : 0 < d)
    (hA : Agrees (spread m phi12 ((P - 1) * d)) ((P - 1) * d) R) (hr : r < P) (X : ℕ → ℕ → ℝ × ℝ) (c : ℕ → ℝ × ℝ) (U : ℝ)
    (hU : U ≤ 10 ^ 9) (hargs : ∀ p < P, ∀ i < n, ArgsWithin fastSin R U (r * d) (p * d) (c i)) :
    ∃ (st : _) (F G : ℕ → ℕ → ℝ × ℝ), cppTrack fastSin (spread m phi12 ((P - 1) * d)) P n d r 0 X c = .ok st ∧ Holds st.xp st.yp P n F ∧
      kickAndDriftCuda Real.sin block (flat P n fun p i => (X p i).1) (flat P n fun p i => (X p i).2) (energies n c)
        (phis n c) m phi12 d r 0 ((P - 1) * d : ℕ) n
        = .ok (flat P n fun p i => (G p i).1, flat P n fun p i => (G p i).2) ∧
      ∀ p < P, ∀ i < n, |(F p i).1 - (G p i).1| ≤ sinError U * (errTransport R (r * d) (p * d)).1 ∧
        |(F p i).2 - (G p i).2| ≤ sinError U * (errTransport R (r * d) (p * d)).2 := by
  obtain ⟨st, h1, h2⟩ := C17_no_offset (n := n) (fastSin : ℝ → ℝ) hd hA hr X c
  have hsn : r * d ≤ (P - 1) * d := Nat.mul_le_mul_right d (by omega)
  have h3 := kickAndDriftCuda_run (sin := Real.sin) hb hd hA rfl hr (s := r * d) (by push_cast; ring) (by omega)
    (by omega) hsn X c (n := n) (δ := 0)
  refine ⟨st, _, _, h1, h2, h3, ?_⟩
  intro p hp i hi
  have := transport_diff R U hU (r * d) (p * d) (c i) (hargs p hp i hi)
  rw [outRow_zero Real.sin R d r p _ (by simp)]
  exact this

/-- a program with two voltages for the example -/
def twoVolts : Program ℝ := ⟨fun _ => 2, fun _ => 1, fun _ => 0, fun _ => 0, fun _ => 1, fun _ => 0, 2⟩

theorem twoVolts_agrees : Agrees (spread ⟨[2, 2], [1, 1], [0, 0], [0, 0], [1], [], 2⟩ 0 ((2 - 1) * 1)) ((2 - 1) * 1) twoVolts where
  rf1v t h := by interval_cases t <;> rfl
  rf2v t h := by interval_cases t <;> rfl
  phi0 t h := by interval_cases t <;> rfl
  deltaE0 t h := by interval_cases t <;> rfl
  driftCoef t h := by interval_cases t; rfl
  phi12 t h := by interval_cases t <;> rfl
  hratio := rfl

/-- two profiles one turn apart, three particles: the phases agree, the energies up to three times the error of the sine -/
example : ∃ (st : _) (F G : ℕ → ℕ → ℝ × ℝ),
    cppTrack fastSin (spread ⟨[2, 2], [1, 1], [0, 0], [0, 0], [1], [], 2⟩ 0 ((2 - 1) * 1)) 2 3 1 0 0 (fun _ _ => (0, 0))
      (fun i => ((i : ℝ), 1)) = .ok st ∧ Holds st.xp st.yp 2 3 F ∧
    ∀ p < 2, ∀ i < 3, |(F p i).1 - (G p i).1| ≤ sinError 10 * 0 ∧
      |(F p i).2 - (G p i).2| ≤ sinError 10 * (if p = 0 then 0 else 3) := by
  obtain ⟨st, F, G, h1, h2, _, h4⟩ := C84_cpu_gpu (n := 3) (block := 32) (by norm_num) (by norm_num) twoVolts_agrees
    (by norm_num : 0 < 2) (fun _ _ => (0, 0)) (fun i => ((i : ℝ), 1)) 10 (by norm_num) (by
      intro p hp i hi
      interval_cases p
      · intro j hj
        simp at hj
      · rw [ArgsWithin, if_pos (by norm_num)]
        intro j hj
        have : j = 0 := by omega
        subst this
        interval_cases i <;> constructor <;> norm_num [up, fwd, twoVolts, abs_le])
  refine ⟨st, F, G, h1, h2, ?_⟩
  intro p hp i hi
  have := h4 p hp i hi
  interval_cases p
  · simpa [errTransport, errUp] using this
  · have e : errTransport twoVolts (0 * 1) (1 * 1) = (0, 3) := by
      norm_num [errTransport, errUp, errFwd, twoVolts]
    rw [e] at this
    simpa using this

end Verif.Props
