import Verif.Model.FastSin
import Mathlib.Analysis.Real.Pi.Bounds
import Mathlib.Analysis.SpecialFunctions.Trigonometric.Bounds
import Mathlib.Data.Rat.Floor
import Mathlib.Tactic

/-!
# Lemmas about the sine of the C++ tracking

The difference between the polynomials of the code and the Taylor polynomials of degree 19 is bounded with a checked
subdivision of the interval; the rest of the series by `Complex.exp_bound`.
-/

namespace Verif.Vdt

/-! ## A checker for bounds of polynomials -/

/-- value of a polynomial with rational coefficients -/
def pev (p : List ℚ) (x : ℝ) : ℝ := p.foldr (fun (c : ℚ) (a : ℝ) => (c : ℝ) + x * a) 0

/-- `carry + (a + t) q(t)` -/
def mulAdd (a : ℚ) : ℚ → List ℚ → List ℚ
  | carry, [] => [carry]
  | carry, c :: q => (carry + a * c) :: mulAdd a c q

/-- `p(a + t)` as a polynomial in `t` -/
def shift (p : List ℚ) (a : ℚ) : List ℚ := p.foldr (fun c q => mulAdd a c q) []

/-- bound of the values for `|t| ≤ r` -/
def absBound (q : List ℚ) (r : ℚ) : ℚ := q.foldr (fun c acc => |c| + r * acc) 0

theorem pev_mulAdd (a carry : ℚ) (q : List ℚ) (t : ℝ) : pev (mulAdd a carry q) t = carry + (a + t) * pev q t := by
  induction q generalizing carry with
  | nil => simp [mulAdd, pev]
  | cons c q ih =>
    have h : pev (mulAdd a carry (c :: q)) t = ((carry + a * c : ℚ) : ℝ) + t * pev (mulAdd a c q) t := rfl
    have h' : pev (c :: q) t = (c : ℝ) + t * pev q t := rfl
    rw [h, ih, h']
    push_cast
    ring

theorem pev_shift (p : List ℚ) (a : ℚ) (t : ℝ) : pev (shift p a) t = pev p (a + t) := by
  induction p with
  | nil => rfl
  | cons c p ih =>
    have h : shift (c :: p) a = mulAdd a c (shift p a) := rfl
    rw [h, pev_mulAdd, ih]
    rfl

theorem absBound_nonneg (q : List ℚ) (r : ℚ) (hr : 0 ≤ r) : 0 ≤ absBound q r := by
  induction q with
  | nil => exact le_rfl
  | cons c q ih => exact add_nonneg (abs_nonneg c) (mul_nonneg hr ih)

theorem pev_bound (q : List ℚ) (r : ℚ) (t : ℝ) (h : |t| ≤ r) : |pev q t| ≤ absBound q r := by
  induction q with
  | nil => simp [pev, absBound]
  | cons c q ih =>
    have h' : pev (c :: q) t = (c : ℝ) + t * pev q t := rfl
    have h2 : absBound (c :: q) r = |c| + r * absBound q r := rfl
    rw [h', h2]
    push_cast
    refine (abs_add_le _ _).trans (add_le_add le_rfl ?_)
    rw [abs_mul]
    exact mul_le_mul h ih (abs_nonneg _) ((abs_nonneg t).trans h)

/-- the checker: `n` intervals of length `2 r` -/
theorem pev_check (p : List ℚ) (n : ℕ) (r ε : ℚ) (hr : 0 < r)
    (h : ∀ i : ℕ, i < n → absBound (shift p ((2 * i + 1) * r)) r ≤ ε) (u : ℝ) (h0 : 0 ≤ u) (h1 : u < 2 * n * r) : |pev p u| ≤ ε := by
  have hr' : (0 : ℝ) < r := by exact_mod_cast hr
  set i := ⌊u / (2 * r)⌋₊ with hi
  have hlo : (i : ℝ) ≤ u / (2 * r) := Nat.floor_le (by positivity)
  have hhi : u / (2 * r) < i + 1 := Nat.lt_floor_add_one _
  rw [le_div_iff₀ (by positivity)] at hlo
  rw [div_lt_iff₀ (by positivity)] at hhi
  have hin : i < n := by
    have : (i : ℝ) * (2 * r) < n * (2 * r) := by linarith
    have := lt_of_mul_lt_mul_right this (by positivity)
    exact_mod_cast this
  have hb := pev_bound (shift p ((2 * i + 1) * r)) r (u - ((2 * i + 1) * r : ℚ)) (by
    push_cast
    rw [abs_le]
    constructor <;> linarith)
  rw [pev_shift, add_sub_cancel] at hb
  exact hb.trans (by exact_mod_cast h i hin)

/-! ## Taylor polynomials -/

/-- degree 19 -/
noncomputable def taylorS (z : ℝ) : ℝ := z - z ^ 3 / 6 + z ^ 5 / 120 - z ^ 7 / 5040 + z ^ 9 / 362880 - z ^ 11 / 39916800 + z ^ 13 / 6227020800 - z ^ 15 / 1307674368000 + z ^ 17 / 355687428096000 - z ^ 19 / 121645100408832000
/-- degree 18 -/
noncomputable def taylorC (z : ℝ) : ℝ := 1 - z ^ 2 / 2 + z ^ 4 / 24 - z ^ 6 / 720 + z ^ 8 / 40320 - z ^ 10 / 3628800 + z ^ 12 / 479001600 - z ^ 14 / 87178291200 + z ^ 16 / 20922789888000 - z ^ 18 / 6402373705728000

theorem taylor_bound (z : ℝ) (hz : |z| ≤ 79 / 100) :
    |Real.sin z - taylorS z| ≤ 1 / 10 ^ 20 ∧ |Real.cos z - taylorC z| ≤ 1 / 10 ^ 20 := by
  have hn : ‖(z : ℂ) * Complex.I‖ = |z| := by simp
  have hb := Complex.exp_bound (x := (z : ℂ) * Complex.I) (by rw [hn]; linarith) (n := 20) (by norm_num)
  rw [hn] at hb
  have h2 : Complex.I ^ 2 = -1 := by rw [Complex.I_pow_eq_pow_mod]; norm_num [Complex.I_sq, pow_succ]
  have h3 : Complex.I ^ 3 = -Complex.I := by rw [Complex.I_pow_eq_pow_mod]; norm_num [Complex.I_sq, pow_succ]
  have h4 : Complex.I ^ 4 = 1 := by rw [Complex.I_pow_eq_pow_mod]; norm_num [Complex.I_sq, pow_succ]
  have h5 : Complex.I ^ 5 = Complex.I := by rw [Complex.I_pow_eq_pow_mod]; norm_num [Complex.I_sq, pow_succ]
  have h6 : Complex.I ^ 6 = -1 := by rw [Complex.I_pow_eq_pow_mod]; norm_num [Complex.I_sq, pow_succ]
  have h7 : Complex.I ^ 7 = -Complex.I := by rw [Complex.I_pow_eq_pow_mod]; norm_num [Complex.I_sq, pow_succ]
  have h8 : Complex.I ^ 8 = 1 := by rw [Complex.I_pow_eq_pow_mod]; norm_num [Complex.I_sq, pow_succ]
  have h9 : Complex.I ^ 9 = Complex.I := by rw [Complex.I_pow_eq_pow_mod]; norm_num [Complex.I_sq, pow_succ]
  have h10 : Complex.I ^ 10 = -1 := by rw [Complex.I_pow_eq_pow_mod]; norm_num [Complex.I_sq, pow_succ]
  have h11 : Complex.I ^ 11 = -Complex.I := by rw [Complex.I_pow_eq_pow_mod]; norm_num [Complex.I_sq, pow_succ]
  have h12 : Complex.I ^ 12 = 1 := by rw [Complex.I_pow_eq_pow_mod]; norm_num [Complex.I_sq, pow_succ]
  have h13 : Complex.I ^ 13 = Complex.I := by rw [Complex.I_pow_eq_pow_mod]; norm_num [Complex.I_sq, pow_succ]
  have h14 : Complex.I ^ 14 = -1 := by rw [Complex.I_pow_eq_pow_mod]; norm_num [Complex.I_sq, pow_succ]
  have h15 : Complex.I ^ 15 = -Complex.I := by rw [Complex.I_pow_eq_pow_mod]; norm_num [Complex.I_sq, pow_succ]
  have h16 : Complex.I ^ 16 = 1 := by rw [Complex.I_pow_eq_pow_mod]; norm_num [Complex.I_sq, pow_succ]
  have h17 : Complex.I ^ 17 = Complex.I := by rw [Complex.I_pow_eq_pow_mod]; norm_num [Complex.I_sq, pow_succ]
  have h18 : Complex.I ^ 18 = -1 := by rw [Complex.I_pow_eq_pow_mod]; norm_num [Complex.I_sq, pow_succ]
  have h19 : Complex.I ^ 19 = -Complex.I := by rw [Complex.I_pow_eq_pow_mod]; norm_num [Complex.I_sq, pow_succ]
  have hS : (∑ m ∈ Finset.range 20, ((z : ℂ) * Complex.I) ^ m / (m.factorial : ℂ)) = (taylorC z : ℂ) + (taylorS z : ℂ) * Complex.I := by
    simp only [Finset.sum_range_succ, Finset.sum_range_zero, mul_pow, pow_zero, pow_one, h2, h3, h4, h5, h6, h7, h8, h9, h10, h11, h12, h13, h14, h15, h16, h17, h18, h19, Nat.factorial]
    unfold taylorC taylorS
    push_cast
    ring
  rw [hS, Complex.exp_mul_I] at hb
  have hr : |z| ^ 20 * ((Nat.succ 20 : ℝ) * ((Nat.factorial 20 : ℝ) * (20 : ℕ))⁻¹) ≤ 1 / 10 ^ 20 := by
    have : |z| ^ 20 ≤ (79 / 100) ^ 20 := pow_le_pow_left₀ (abs_nonneg z) hz 20
    refine (mul_le_mul_of_nonneg_right this (by positivity)).trans ?_
    norm_num [Nat.factorial]
  have hb := hb.trans hr
  have e : Complex.cos z + Complex.sin z * Complex.I - ((taylorC z : ℂ) + (taylorS z : ℂ) * Complex.I)
      = ((Real.cos z - taylorC z : ℝ) : ℂ) + ((Real.sin z - taylorS z : ℝ) : ℂ) * Complex.I := by
    push_cast
    ring
  rw [e] at hb
  constructor
  · have := (Complex.abs_im_le_norm _).trans hb
    simpa [← Complex.ofReal_sin, ← Complex.ofReal_cos] using this
  · have := (Complex.abs_re_le_norm _).trans hb
    simpa [← Complex.ofReal_sin, ← Complex.ofReal_cos] using this

/-! ## The polynomials of the code -/

/-- sine of the code less Taylor polynomial, divided by the argument, as a polynomial in the square -/
def sinErr : List ℚ := [1 - 1 / 1,
  dec (-166666666666666307295) 21 + 1 / 6,
  dec 833333333332211858878 23 - 1 / 120,
  dec (-198412698295895385996) 24 + 1 / 5040,
  dec 275573136213857245213 26 - 1 / 362880,
  dec (-250507477628578072866) 28 + 1 / 39916800,
  dec 158962301576546568060 30 - 1 / 6227020800,
  0 + 1 / 1307674368000,
  0 - 1 / 355687428096000,
  0 + 1 / 121645100408832000]
/-- cosine of the code less Taylor polynomial -/
def cosErr : List ℚ := [1 - 1 / 1,
  -1 / 2 + 1 / 2,
  dec 416666666666665929218 22 - 1 / 24,
  dec (-138888888888730564116) 23 + 1 / 720,
  dec 248015872888517045348 25 - 1 / 40320,
  dec (-275573141792967388112) 27 + 1 / 3628800,
  dec 208757008419747316778 29 - 1 / 479001600,
  dec (-113585365213876817300) 31 + 1 / 87178291200,
  0 - 1 / 20922789888000,
  0 + 1 / 6402373705728000]
/-- single precision -/
def sinErrF : List ℚ := [1 - 1 / 1,
  -dec 16666654611 11 + 1 / 6,
  dec 83321608736 13 - 1 / 120,
  dec (-19515295891) 14 + 1 / 5040,
  0 - 1 / 362880,
  0 + 1 / 39916800,
  0 - 1 / 6227020800,
  0 + 1 / 1307674368000,
  0 - 1 / 355687428096000,
  0 + 1 / 121645100408832000]
/-- single precision -/
def cosErrF : List ℚ := [1 - 1 / 1,
  -1 / 2 + 1 / 2,
  dec 4166664568298827 17 - 1 / 24,
  -dec 1388731625493765 18 + 1 / 720,
  dec 2443315711809948 20 - 1 / 40320,
  0 + 1 / 3628800,
  0 - 1 / 479001600,
  0 + 1 / 87178291200,
  0 - 1 / 20922789888000,
  0 + 1 / 6402373705728000]

theorem sinErr_check : ∀ i : ℕ, i < 16 → absBound (shift sinErr ((2 * i + 1) * (62 / 3200))) (62 / 3200) ≤ 1 / 10 ^ 17 := by
  decide +kernel
theorem cosErr_check : ∀ i : ℕ, i < 16 → absBound (shift cosErr ((2 * i + 1) * (62 / 3200))) (62 / 3200) ≤ 1 / 10 ^ 17 := by
  decide +kernel
theorem sinErrF_check : ∀ i : ℕ, i < 16 → absBound (shift sinErrF ((2 * i + 1) * (62 / 3200))) (62 / 3200) ≤ 5 / 10 ^ 9 := by
  decide +kernel
theorem cosErrF_check : ∀ i : ℕ, i < 16 → absBound (shift cosErrF ((2 * i + 1) * (62 / 3200))) (62 / 3200) ≤ 5 / 10 ^ 9 := by
  decide +kernel

theorem sincos45_eq (z : ℝ) : (sincos45 z).1 = taylorS z + z * pev sinErr (z * z) ∧
    (sincos45 z).2 = taylorC z + pev cosErr (z * z) := by
  constructor
  · simp only [sincos45, sinPx, taylorS, pev, sinErr, dec, List.foldr]
    push_cast
    ring
  · simp only [sincos45, cosPx, taylorC, pev, cosErr, dec, List.foldr]
    push_cast
    ring

theorem sincos45F_eq (z : ℝ) : (sincos45F z).1 = taylorS z + z * pev sinErrF (z * z) ∧
    (sincos45F z).2 = taylorC z + pev cosErrF (z * z) := by
  constructor
  · simp only [sincos45F, taylorS, pev, sinErrF, dec, List.foldr]
    push_cast
    ring
  · simp only [sincos45F, taylorC, pev, cosErrF, dec, List.foldr]
    push_cast
    ring

theorem poly_bound (sc : ℝ → ℝ × ℝ) (ps pc : List ℚ) (ε : ℚ)
    (hs : ∀ i : ℕ, i < 16 → absBound (shift ps ((2 * i + 1) * (62 / 3200))) (62 / 3200) ≤ ε)
    (hc : ∀ i : ℕ, i < 16 → absBound (shift pc ((2 * i + 1) * (62 / 3200))) (62 / 3200) ≤ ε)
    (z : ℝ) (hz : |z| ≤ 78 / 100 + 6 / 1000) (he : (sc z).1 = taylorS z + z * pev ps (z * z) ∧ (sc z).2 = taylorC z + pev pc (z * z)) :
    |(sc z).1 - Real.sin z| ≤ ε + 1 / 10 ^ 20 ∧ |(sc z).2 - Real.cos z| ≤ ε + 1 / 10 ^ 20 := by
  obtain ⟨t1, t2⟩ := taylor_bound z (by linarith)
  have hzz : z * z < 2 * (16 : ℕ) * ((62 / 3200 : ℚ) : ℝ) := by
    have : z * z = |z| * |z| := (abs_mul_abs_self z).symm
    rw [this]
    push_cast
    nlinarith [abs_nonneg z]
  have b1 := pev_check ps 16 (62 / 3200) ε (by norm_num) hs (z * z) (mul_self_nonneg z) hzz
  have b2 := pev_check pc 16 (62 / 3200) ε (by norm_num) hc (z * z) (mul_self_nonneg z) hzz
  have hε : (0 : ℝ) ≤ ε := (abs_nonneg _).trans b1
  constructor
  · rw [he.1, show taylorS z + z * pev ps (z * z) - Real.sin z = z * pev ps (z * z) + -(Real.sin z - taylorS z) by ring]
    refine (abs_add_le _ _).trans (add_le_add ?_ (by rw [abs_neg]; exact t1))
    rw [abs_mul]
    nlinarith [abs_nonneg z, abs_nonneg (pev ps (z * z))]
  · rw [he.2, show taylorC z + pev pc (z * z) - Real.cos z = pev pc (z * z) + -(Real.cos z - taylorC z) by ring]
    exact (abs_add_le _ _).trans (add_le_add b2 (by rw [abs_neg]; exact t2))

/-! ## Reduction of the argument -/

theorem quad_even (x : ℝ) : ∃ k : ℤ, quad x = 2 * k := ⟨(quad0 x + 1) / 2, by unfold quad; omega⟩

theorem quad_near (x : ℝ) : |(|x| - quad x * (mPi / 4))| ≤ mPi / 4 := by
  have hp : (0 : ℝ) < mPi := by norm_num [mPi, dec]
  have h1 : (quad0 x : ℝ) ≤ oneOPio4 * |x| := Int.floor_le _
  have h2 : oneOPio4 * |x| < quad0 x + 1 := Int.lt_floor_add_one _
  have hq : quad x = quad0 x ∨ quad x = quad0 x + 1 := by unfold quad; omega
  have e : |x| = oneOPio4 * |x| * (mPi / 4) := by
    unfold oneOPio4
    field_simp
  rw [abs_le]
  rcases hq with h | h <;> rw [h] <;> push_cast <;> constructor <;> rw [e] <;> nlinarith

theorem quad_nonneg (x : ℝ) : 0 ≤ quad0 x := by
  unfold quad0
  apply Int.floor_nonneg.2
  have : (0 : ℝ) ≤ oneOPio4 := by norm_num [oneOPio4, mPi, dec]
  positivity

theorem quad_le (x : ℝ) : 0 ≤ quad x ∧ (quad x : ℝ) ≤ 13 / 10 * |x| + 1 := by
  have h0 := quad_nonneg x
  have hq : quad x = quad0 x ∨ quad x = quad0 x + 1 := by unfold quad; omega
  have h1 : (quad0 x : ℝ) ≤ oneOPio4 * |x| := Int.floor_le _
  have ho : (oneOPio4 : ℝ) ≤ 13 / 10 := by norm_num [oneOPio4, mPi, dec]
  refine ⟨by omega, ?_⟩
  have : oneOPio4 * |x| ≤ 13 / 10 * |x| := mul_le_mul_of_nonneg_right ho (abs_nonneg x)
  rcases hq with h | h <;> rw [h] <;> push_cast <;> linarith

/-- the constants add up to a quarter of pi -/
theorem dp_sum : |(dp1 + dp2 + dp3 : ℝ) - Real.pi / 4| ≤ 1 / 10 ^ 20 ∧ |(dp1 + dp2 + dp3 : ℝ) - mPi / 4| ≤ 1 / 10 ^ 20 := by
  have h1 := Real.pi_gt_d20
  have h2 := Real.pi_lt_d20
  constructor
  · rw [abs_le]
    constructor <;> norm_num [dp1, dp2, dp3, dec] <;> norm_num at h1 h2 <;> linarith
  · norm_num [dp1, dp2, dp3, dec, mPi, abs_le]

theorem dpF_sum : |(dp1F + dp2F + dp3F : ℝ) - Real.pi / 4| ≤ 1 / 10 ^ 20 ∧ |(dp1F + dp2F + dp3F : ℝ) - mPi / 4| ≤ 1 / 10 ^ 20 := by
  have h1 := Real.pi_gt_d20
  have h2 := Real.pi_lt_d20
  constructor
  · rw [abs_le]
    constructor <;> norm_num [dp1F, dp2F, dp3F, dec] <;> norm_num at h1 h2 <;> linarith
  · norm_num [dp1F, dp2F, dp3F, dec, mPi, abs_le]

theorem reduce_spec (d1 d2 d3 : ℝ) (h : |d1 + d2 + d3 - Real.pi / 4| ≤ 1 / 10 ^ 20 ∧ |d1 + d2 + d3 - mPi / 4| ≤ 1 / 10 ^ 20) (x : ℝ)
    (hx : |x| ≤ 10 ^ 15) :
    |reduce d1 d2 d3 x| ≤ 78 / 100 + 6 / 1000 ∧
    |reduce d1 d2 d3 x - (|x| - quad x * (Real.pi / 4))| ≤ (13 / 10 * |x| + 1) / 10 ^ 20 := by
  obtain ⟨q0, q1⟩ := quad_le x
  have q0' : (0 : ℝ) ≤ quad x := by exact_mod_cast q0
  have hn := quad_near x
  have e1 : reduce d1 d2 d3 x = (|x| - quad x * (mPi / 4)) - quad x * (d1 + d2 + d3 - mPi / 4) := by unfold reduce; ring
  have e2 : reduce d1 d2 d3 x - (|x| - quad x * (Real.pi / 4)) = -(quad x * (d1 + d2 + d3 - Real.pi / 4)) := by unfold reduce; ring
  have hmul : ∀ t : ℝ, |t| ≤ 1 / 10 ^ 20 → |(quad x : ℝ) * t| ≤ (13 / 10 * |x| + 1) / 10 ^ 20 := by
    intro t ht
    rw [abs_mul, abs_of_nonneg q0']
    calc (quad x : ℝ) * |t| ≤ (13 / 10 * |x| + 1) * (1 / 10 ^ 20) := mul_le_mul q1 ht (abs_nonneg _) (by positivity)
      _ = _ := by ring
  constructor
  · rw [e1]
    refine (abs_sub _ _).trans ?_
    have h3 := hmul _ h.2
    have hm : (mPi : ℝ) / 4 ≤ 7854 / 10000 := by norm_num [mPi, dec]
    have h4 : (13 / 10 * |x| + 1) / 10 ^ 20 ≤ (13 / 10 * 10 ^ 15 + 1) / 10 ^ 20 := by gcongr
    have h5 : ((13 : ℝ) / 10 * 10 ^ 15 + 1) / 10 ^ 20 ≤ 6 / 10000 := by norm_num
    refine (add_le_add (hn.trans hm) ((h3.trans h4).trans h5)).trans ?_
    norm_num
  · rw [e2, abs_neg]
    exact hmul _ h.1

/-! ## Octants -/

theorem octants_near (sc : ℝ → ℝ × ℝ) (z δ : ℝ) (x : ℝ) (hs : |(sc z).1 - Real.sin (|x| - quad x * (Real.pi / 4))| ≤ δ)
    (hc : |(sc z).2 - Real.cos (|x| - quad x * (Real.pi / 4))| ≤ δ) :
    |(octants sc z (quad x) x).1 - Real.sin x| ≤ δ ∧ |(octants sc z (quad x) x).2 - Real.cos x| ≤ δ := by
  obtain ⟨k, hk⟩ := quad_even x
  set w := |x| - quad x * (Real.pi / 4) with hw
  have hx : |x| = w + quad x * (Real.pi / 4) := by rw [hw]; ring
  have hm : k = 4 * (k / 4) ∨ k = 4 * (k / 4) + 1 ∨ k = 4 * (k / 4) + 2 ∨ k = 4 * (k / 4) + 3 := by omega
  set n := k / 4
  have hsin : Real.sin x = if x < 0 then -Real.sin |x| else Real.sin |x| := by
    split
    · rename_i h
      rw [abs_of_neg h, Real.sin_neg, neg_neg]
    · rename_i h
      rw [abs_of_nonneg (not_lt.1 h)]
  rw [hsin, ← Real.cos_abs x, hx]
  have key : ∀ (s c s' c' : ℝ), |s - s'| ≤ δ → |c - c'| ≤ δ →
      |(if x < 0 then -s else s) - (if x < 0 then -s' else s')| ≤ δ ∧ |c - c'| ≤ δ := by
    intro s c s' c' h1 h2
    refine ⟨?_, h2⟩
    split
    · rw [neg_sub_neg, abs_sub_comm]
      exact h1
    · exact h1
  have hneg : ∀ a b : ℝ, |a - b| ≤ δ → |-a - -b| ≤ δ := fun a b h => by rw [neg_sub_neg, abs_sub_comm]; exact h
  rcases hm with h | h | h | h
  · have b1 : bit 2 (quad x) = 0 := by unfold bit; omega
    have b2 : bit 2 (quad x - 2) = 1 := by unfold bit; omega
    have b3 : bit 1 (quad x - 2) = 1 := by unfold bit; omega
    have e : w + quad x * (Real.pi / 4) = w + n * (2 * Real.pi) := by rw [hk, h]; push_cast; ring
    rw [e, Real.sin_add_int_mul_two_pi, Real.cos_add_int_mul_two_pi]
    simp only [octants, b1, b2, b3]
    exact key _ _ _ _ hs hc
  · have b1 : bit 2 (quad x) = 0 := by unfold bit; omega
    have b2 : bit 2 (quad x - 2) = 0 := by unfold bit; omega
    have b3 : bit 1 (quad x - 2) = 0 := by unfold bit; omega
    have e : w + quad x * (Real.pi / 4) = w + Real.pi / 2 + n * (2 * Real.pi) := by rw [hk, h]; push_cast; ring
    rw [e, Real.sin_add_int_mul_two_pi, Real.cos_add_int_mul_two_pi, Real.sin_add_pi_div_two, Real.cos_add_pi_div_two]
    simp only [octants, b1, b2, b3]
    exact key _ _ _ _ hc (hneg _ _ hs)
  · have b1 : bit 2 (quad x) = 1 := by unfold bit; omega
    have b2 : bit 2 (quad x - 2) = 0 := by unfold bit; omega
    have b3 : bit 1 (quad x - 2) = 1 := by unfold bit; omega
    have e : w + quad x * (Real.pi / 4) = w + Real.pi + n * (2 * Real.pi) := by rw [hk, h]; push_cast; ring
    rw [e, Real.sin_add_int_mul_two_pi, Real.cos_add_int_mul_two_pi, Real.sin_add_pi, Real.cos_add_pi]
    simp only [octants, b1, b2, b3]
    exact key _ _ _ _ (hneg _ _ hs) (hneg _ _ hc)
  · have b1 : bit 2 (quad x) = 1 := by unfold bit; omega
    have b2 : bit 2 (quad x - 2) = 1 := by unfold bit; omega
    have b3 : bit 1 (quad x - 2) = 0 := by unfold bit; omega
    have e : w + quad x * (Real.pi / 4) = w + Real.pi / 2 + Real.pi + n * (2 * Real.pi) := by rw [hk, h]; push_cast; ring
    rw [e, Real.sin_add_int_mul_two_pi, Real.cos_add_int_mul_two_pi, Real.sin_add_pi, Real.cos_add_pi, Real.sin_add_pi_div_two,
      Real.cos_add_pi_div_two]
    have key' := key _ _ _ _ (hneg _ _ hc) hs
    simp only [octants, b1, b2, b3]
    simpa using key'

/-- polynomial, reduction and octants together -/
theorem octants_bound (sc : ℝ → ℝ × ℝ) (d1 d2 d3 ε : ℝ) (hd : |d1 + d2 + d3 - Real.pi / 4| ≤ 1 / 10 ^ 20 ∧ |d1 + d2 + d3 - mPi / 4| ≤ 1 / 10 ^ 20)
    (hp : ∀ z, |z| ≤ 78 / 100 + 6 / 1000 → |(sc z).1 - Real.sin z| ≤ ε ∧ |(sc z).2 - Real.cos z| ≤ ε) (x : ℝ) (hx : |x| ≤ 10 ^ 15) :
    |(octants sc (reduce d1 d2 d3 x) (quad x) x).1 - Real.sin x| ≤ ε + (13 / 10 * |x| + 1) / 10 ^ 20 ∧
    |(octants sc (reduce d1 d2 d3 x) (quad x) x).2 - Real.cos x| ≤ ε + (13 / 10 * |x| + 1) / 10 ^ 20 := by
  obtain ⟨r1, r2⟩ := reduce_spec d1 d2 d3 hd x hx
  obtain ⟨p1, p2⟩ := hp _ r1
  apply octants_near
  · exact (abs_sub_le _ _ _).trans (add_le_add p1 ((Real.abs_sin_sub_sin_le _ _).trans r2))
  · exact (abs_sub_le _ _ _).trans (add_le_add p2 ((Real.abs_cos_sub_cos_le _ _).trans r2))

end Verif.Vdt
