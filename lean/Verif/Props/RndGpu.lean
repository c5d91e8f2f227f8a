import Verif.Lemmas.RndNd
import Verif.Lemmas.Binary
import Verif.Props.Rnd
import Verif.Props.Cuda

/-!
# Runs on the GPU under every schedule, exact (C48) and in floating point (C93)

`Always ⟨m₀, pool⟩ Q` says that the threads of `pool`, started on memory `m₀`, always come to an end, whatever the interleaving, and
that `Q` holds of the memory they leave.  `reconstructN … r` says that `r` is a possible outcome of `reconstruct_cuda`: every launch may
interleave its threads in any way, and every sum made on the device (`cp.sum`, `BlockReduce::Sum`) may add in any order and with any
bracketing.  Addition on `Rn w` is rounded, so it depends on the order.
-/

namespace Verif.Props
open Verif.Rounded Verif.Par Verif.Omp Verif.Cuda Verif.Track Verif.Spec

/-- C48, the whole run with the device free to schedule every launch and every sum: in exact arithmetic there is exactly one outcome,
the result (or error) of the C++ `reconstruct`. -/
theorem C48_every_schedule {K : Type} [Field K] [LinearOrder K] [IsStrictOrderedRing K] {B Q npart nprof nbins : ℕ} {x : ℕ → ℕ → ℕ}
    (hB : 0 < B) (hQ : 0 < Q) (hQ' : Q ≤ 512) (sqrt : K → K) (empty : ℕ → K) (hp : 0 < nprof) (hb : 0 < nbins)
    (hx : InRange npart nprof nbins x) (wf : ℕ → ℕ → K) (niter : ℕ) (r : M (Recon.RState K)) :
    Cuda.reconstructN B Q sqrt empty (xbuf npart nprof x) (flat nprof nbins wf) niter nbins npart nprof r
      ↔ r = (Recon.reconstruct sqrt (xbuf npart nprof x) (flat nprof nbins wf) niter nbins npart nprof).2 := by
  rw [reconstructN_det hB hQ hQ' sqrt empty hp hb hx (by simp [flat, tab]), C48_same_as_cpp hB hQ hQ' sqrt empty hp hb hx wf niter]
  exact Iff.rfl

/-- the hypotheses are met: three particles, two profiles, blocks of 32 threads, a run that succeeds -/
example (sqrt : ℚ → ℚ) (empty : ℕ → ℚ) : ∃! r, Cuda.reconstructN 32 32 sqrt empty (xbuf 3 2 x3) (flat 2 2 fun p b => p + b) 5 2 3 2 r := by
  refine ⟨_, (C48_every_schedule (by norm_num) (by norm_num) (by norm_num) sqrt empty (by norm_num) (by norm_num) x3_inRange _ 5 _).mpr rfl,
    fun r hr => ?_⟩
  exact (C48_every_schedule (by norm_num) (by norm_num) (by norm_num) sqrt empty (by norm_num) (by norm_num) x3_inRange _ 5 r).mp hr

/-- C93, `project`: under every interleaving of the threads each bin of the recreated profiles is the sum of the weights of the
particles in it, up to one rounding per addition; nothing else changes. -/
theorem C93_project {w : World} {u : ℝ} (hw : w.Accurate u) (h0 : 0 ≤ u) {npart nprof B : ℕ} (hB : 0 < B)
    (m₀ : Memory (Rn w)) :
    Always ⟨m₀, grid (gridSize (npart * nprof) B) B (projectThread npart nprof)⟩ (fun m =>
      (∀ j, AddedUp u (adders (npart * nprof) (fun t => ints m₀ .points t) j).card (reals m₀ .recon j)
        (adders (npart * nprof) (fun t => ints m₀ .points t) j) (fun t => reals m₀ .weights (t / nprof : ℕ))
        (reals m .recon j)) ∧ OnlyArray .recon m₀ m) :=
  project_added hw h0 hB m₀

/-- C93, `count_particles_in_bin`: the counts are exact under every interleaving, as long as the number of particles times profiles
does not exceed `1 / u` (9·10¹⁵ for doubles, 1.6·10⁷ for single precision). -/
theorem C93_count {w : World} {u : ℝ} (hw : w.Accurate u) (h0 : 0 ≤ u) {npart nprof nbins B : ℕ} (hB : 0 < B)
    (hu : ((npart * nprof : ℕ) : ℝ) * u ≤ 1) (m₀ : Memory (Rn w)) :
    Always ⟨m₀, grid (gridSize (npart * nprof) B) B (countThread nprof npart nbins)⟩ (fun m =>
      (∀ j, reals m₀ .rparts j = 0 →
        reals m .rparts j = (((adders (npart * nprof) (fun t => (t % nprof * nbins : ℕ) + ints m₀ .coords t) j).card : ℕ) : ℝ)) ∧
      OnlyArray .rparts m₀ m) :=
  count_added hw h0 hB hu m₀

/-- the hypothesis is met in single precision: a million particles, ten profiles -/
example : (((1000000 * 10 : ℕ)) : ℝ) * 2 ^ (-(24 : ℤ)) ≤ 1 := by norm_num

theorem sumErr_zero {u v : ℝ} {l : List ℝ}
    (h : |v - List.sum ((0 : ℝ) :: l)| ≤ ((1 + u) ^ ((0 : ℝ) :: l).length - 1) * (List.map (fun v : ℝ => |v|) ((0 : ℝ) :: l)).sum) :
    |v - l.sum| ≤ ((1 + u) ^ (l.length + 1) - 1) * (List.map (fun v : ℝ => |v|) l).sum := by
  simpa using h

/-- C93, sums on the device (`cp.sum`): whatever the order and the bracketing, the result is the sum up to one rounding per element. -/
theorem C93_sum {w : World} {u : ℝ} (hw : w.Accurate u) (h0 : 0 ≤ u) {l : List (Rn w)} {r : M (Rn w)} (h : cpSum l r) :
    ∃ v : ℝ, r = .ok v ∧ |v - List.sum (α := ℝ) l| ≤ ((1 + u) ^ (l.length + 1) - 1) * (List.map (fun v : ℝ => |v|) l).sum := by
  obtain ⟨v, rfl, h | h⟩ := h
  · refine ⟨v, rfl, (tree_err hw h0 h).trans (mul_le_mul_of_nonneg_right ?_ (sumAbs_nonneg _))⟩
    exact sub_le_sub_right (pow_mono h0 (Nat.le_succ _)) 1
  · exact ⟨v, rfl, sumErr_zero (tree_err (l := (0 : ℝ) :: l) hw h0 h)⟩

/-- C93, the whole run: if the C++ reconstruction succeeds in exact arithmetic then in every sufficiently accurate floating point
arithmetic the GPU reconstruction has an outcome, and every outcome it can have is a success whose weights, recreated profiles and
discrepancies are as near to the exact ones as wanted.  One accuracy serves all schedules, orders and bracketings, whatever new
device arrays contain. -/
theorem C93_run {B Q npart nprof nbins : ℕ} {x : ℕ → ℕ → ℕ} (hB : 0 < B) (hQ : 0 < Q) (hQ' : Q ≤ 512) (hp : 0 < nprof) (hb : 0 < nbins)
    (hx : InRange npart nprof nbins x) (wf : ℕ → ℕ → ℝ) (niter : ℕ) {st : Recon.RState ℝ}
    (h : (Recon.reconstruct Real.sqrt (xbuf npart nprof x) (flat nprof nbins wf) niter nbins npart nprof).2 = .ok st)
    {ε : ℝ} (hε : 0 < ε) :
    ∃ u : ℝ, 0 < u ∧ ∀ w : World, w.Accurate u → ∀ empty : ℕ → Rn w,
      (∃ r, Cuda.reconstructN (α := Rn w) B Q w.sqrt empty (xbuf npart nprof x) (roundAll w (flat nprof nbins wf)) niter nbins npart nprof
        r) ∧
      ∀ r, Cuda.reconstructN (α := Rn w) B Q w.sqrt empty (xbuf npart nprof x) (roundAll w (flat nprof nbins wf)) niter nbins npart nprof
        r → ∃ s : Recon.RState (Rn w), r = .ok s ∧
          Within ε s.weights st.weights ∧ Within ε s.flatRec st.flatRec ∧ Within ε s.discr st.discr := by
  apply exists_unit
  have hc : (Cuda.reconstruct B Q Real.sqrt (fun _ => 0) (xbuf npart nprof x) (flat nprof nbins wf) niter nbins npart nprof).2 = .ok st :=
    (C48_same_as_cpp hB hQ hQ' Real.sqrt _ hp hb hx wf niter).trans h
  let X : ∀ w : World, (ℕ → ℝ) → M (Recon.RState ℝ) → Prop := fun w e r =>
    Cuda.reconstructN (α := Rn w) B Q w.sqrt e (xbuf npart nprof x) (roundAll w (flat nprof nbins wf)) niter nbins npart nprof r
  let G : M (Recon.RState ℝ) → Prop := fun r => ∃ s : Recon.RState ℝ, r = .ok s ∧
    Within ε s.weights st.weights ∧ Within ε s.flatRec st.flatRec ∧ Within ε s.discr st.discr
  have d1 : ∀ w, ∃ e : ℕ → ℝ, ((∃ r, X w e r) ∧ ∀ r, X w e r → G r) → ∀ e', (∃ r, X w e' r) ∧ ∀ r, X w e' r → G r := by
    intro w
    by_cases hb : ∃ e, ¬ ((∃ r, X w e r) ∧ ∀ r, X w e r → G r)
    · obtain ⟨e, he⟩ := hb
      exact ⟨e, fun h => absurd h he⟩
    · exact ⟨fun _ => 0, fun _ e' => not_not.mp fun he => hb ⟨e', he⟩⟩
  choose E hE using d1
  obtain ⟨h1, h2⟩ := rel_reconstructN hB (LRel.round (flat nprof nbins wf)) E (fun _ => 0) (xbuf npart nprof x) niter nbins npart nprof
    st hc
  have d2 : ∀ w, (∃ r, X w (E w) r) → ∃ r, X w (E w) r ∧ (G r → ∀ r', X w (E w) r' → G r') := by
    rintro w ⟨r, hr⟩
    by_cases hb : ∃ r', X w (E w) r' ∧ ¬ G r'
    · obtain ⟨r', h1, h2⟩ := hb
      exact ⟨r', h1, fun h => absurd h h2⟩
    · exact ⟨r, hr, fun _ r' h' => not_not.mp fun hn => hb ⟨r', h', hn⟩⟩
  obtain ⟨o, ho⟩ := (h1.mono fun w hw => d2 w hw).choice
  obtain ⟨s, e1, e2, e3, e4⟩ := h2 o (ho.mono fun w hw => hw.1)
  filter_upwards [h1, ho, e1, within_of_close e2 hε, within_of_close e3 hε, within_of_close e4 hε] with w a b c c1 c2 c3
  exact hE w ⟨a, b.2 ⟨s w, c, c1, c2, c3⟩⟩

/-- C93: any two runs on the GPU, and any run on the GPU and the C++ run, differ by less than wanted. -/
theorem C93_reproducible {B Q npart nprof nbins : ℕ} {x : ℕ → ℕ → ℕ} (hB : 0 < B) (hQ : 0 < Q) (hQ' : Q ≤ 512) (hp : 0 < nprof)
    (hb : 0 < nbins) (hx : InRange npart nprof nbins x) (wf : ℕ → ℕ → ℝ) (niter : ℕ) {st : Recon.RState ℝ}
    (h : (Recon.reconstruct Real.sqrt (xbuf npart nprof x) (flat nprof nbins wf) niter nbins npart nprof).2 = .ok st)
    {ε : ℝ} (hε : 0 < ε) :
    ∃ p0 : ℕ, ∀ p, p0 ≤ p → ∀ (e e' : ℕ → Rn (binary p)) (r r' : M (Recon.RState (Rn (binary p)))),
      Cuda.reconstructN (α := Rn (binary p)) B Q (binary p).sqrt e (xbuf npart nprof x) (roundAll (binary p) (flat nprof nbins wf)) niter nbins npart nprof r →
      (Cuda.reconstructN (α := Rn (binary p)) B Q (binary p).sqrt e' (xbuf npart nprof x) (roundAll (binary p) (flat nprof nbins wf)) niter nbins npart nprof r'
        ∨ r' = (Recon.reconstruct (α := Rn (binary p)) (binary p).sqrt (xbuf npart nprof x) (roundAll (binary p) (flat nprof nbins wf))
          niter nbins npart nprof).2) →
      ∃ s s' : Recon.RState (Rn (binary p)), r = .ok s ∧ r' = .ok s' ∧
        Within ε s.weights s'.weights ∧ Within ε s.flatRec s'.flatRec ∧ Within ε s.discr s'.discr := by
  obtain ⟨u1, hu1, h1⟩ := C93_run hB hQ hQ' hp hb hx wf niter h (half_pos hε)
  obtain ⟨u2, hu2, h2⟩ := C90_reconstruct _ _ _ _ _ _ h (half_pos hε)
  obtain ⟨p1, hp1⟩ := enough_bits hu1
  obtain ⟨p2, hp2⟩ := enough_bits hu2
  have tri : ∀ a b c : List ℝ, Within (ε / 2) a c → Within (ε / 2) b c → Within ε a b := by
    intro a b c hab hbc
    unfold Within at *
    induction hab generalizing b with
    | nil => cases hbc; exact .nil
    | cons h _ ih =>
      cases hbc with
      | cons h' t' =>
        refine .cons ?_ (ih _ t')
        rw [abs_lt] at *
        constructor <;> linarith [h.1, h.2, h'.1, h'.2]
  refine ⟨max p1 p2, fun p hp e e' r r' hr hr' => ?_⟩
  obtain ⟨s, rfl, a1, a2, a3⟩ := (h1 _ (hp1 p (le_trans (le_max_left _ _) hp)) e).2 r hr
  rcases hr' with hr' | rfl
  · obtain ⟨s', rfl, b1, b2, b3⟩ := (h1 _ (hp1 p (le_trans (le_max_left _ _) hp)) e').2 r' hr'
    exact ⟨s, s', rfl, rfl, tri _ _ _ a1 b1, tri _ _ _ a2 b2, tri _ _ _ a3 b3⟩
  · obtain ⟨s', e1, b1, b2, b3⟩ := h2 _ (hp2 p (le_trans (le_max_right _ _) hp))
    exact ⟨s, s', rfl, e1, tri _ _ _ a1 b1, tri _ _ _ a2 b2, tri _ _ _ a3 b3⟩

/-- the threads of three particles in one bin, one after the other in two orders -/
theorem project_two_orders {α : Type} [Add α] [Sub α] [Mul α] [Zero α] [One α] [NatCast α] [IntCast α] [LT α] [LE α]
    [DecidableLT α] [DecidableLE α] [DecidableEq α] [FDiv α] (a b c : α) :
    projectN 1 [0] [0, 0, 0] [a, b, c] 3 1 (.ok [0 + a + b + c]) ∧ projectN 1 [0] [0, 0, 0] [a, b, c] 3 1 (.ok [0 + b + c + a]) := by
  refine ⟨⟨_, exec_reach [0, 0, 0, 1, 1, 1, 2, 2, 2] _ _, final_of_isDone ?_, ?_⟩,
    ⟨_, exec_reach [1, 1, 1, 2, 2, 2, 0, 0, 0] _ _, final_of_isDone ?_, ?_⟩⟩
  · rfl
  · rfl
  · rfl
  · rfl

/-- `3·2⁻⁵⁵` -/
noncomputable def tiny : ℝ := 3 / 2 ^ 55

/-- C93 is violated if the same bits are expected from every run: three particles with the weights `1`, `3·2⁻⁵⁵` and `3·2⁻⁵⁵` in one
bin; in double precision `project` leaves `1` in the bin when the heavy particle is added first and `1 + 2⁻⁵²` when it is added last. -/
theorem C93_violated_same_bits :
    projectN (α := Rn (binary 53)) 1 [0] [0, 0, 0] [(1 : ℝ), tiny, tiny] 3 1 (.ok [(1 : ℝ)]) ∧
    projectN (α := Rn (binary 53)) 1 [0] [0, 0, 0] [(1 : ℝ), tiny, tiny] 3 1 (.ok [((1 + 1 / 2 ^ 52 : ℝ) : ℝ)]) := by
  obtain ⟨h1, h2⟩ := project_two_orders (α := Rn (binary 53)) (1 : ℝ) tiny tiny
  have e1 : (binaryRound 53 (binaryRound 53 (binaryRound 53 (0 + 1) + tiny) + tiny) : ℝ) = 1 := by
    have f1 : binaryRound 53 (0 + 1) = 1 := by rw [binaryRound_pos (e := 0) (k := 4503599627370496)] <;> norm_num
    have f2 : binaryRound 53 (1 + 3 / 2 ^ 55) = 1 := by rw [binaryRound_pos (e := 0) (k := 4503599627370496)] <;> norm_num
    unfold tiny
    rw [f1, f2, f2]
  have e2 : (binaryRound 53 (binaryRound 53 (binaryRound 53 (0 + tiny) + tiny) + 1) : ℝ) = 1 + 1 / 2 ^ 52 := by
    have f1 : binaryRound 53 (0 + 3 / 2 ^ 55) = 3 / 2 ^ 55 := by
      rw [binaryRound_pos (e := -54) (k := 6755399441055744)] <;> norm_num
    have f2 : binaryRound 53 (3 / 2 ^ 55 + 3 / 2 ^ 55) = 3 / 2 ^ 54 := by
      rw [binaryRound_pos (e := -53) (k := 6755399441055744)] <;> norm_num
    have f3 : binaryRound 53 (3 / 2 ^ 54 + 1) = 1 + 1 / 2 ^ 52 := by
      rw [binaryRound_pos (e := 0) (k := 4503599627370497)] <;> norm_num
    unfold tiny
    rw [f1, f2, f3]
  exact ⟨(congrArg (fun v : ℝ => projectN (α := Rn (binary 53)) 1 [0] [0, 0, 0] [(1 : ℝ), tiny, tiny] 3 1 (.ok [v])) e1).mp h1,
    (congrArg (fun v : ℝ => projectN (α := Rn (binary 53)) 1 [0] [0, 0, 0] [(1 : ℝ), tiny, tiny] 3 1 (.ok [v])) e2).mp h2⟩

/-- the hypotheses of `C93_run` are met: three particles, two profiles, a negative sample, blocks of 32 threads -/
example : ∃ p0 : ℕ, ∀ p, p0 ≤ p → ∀ (e e' : ℕ → Rn (binary p)) (r r' : M (Recon.RState (Rn (binary p)))),
    Cuda.reconstructN (α := Rn (binary p)) 32 32 (binary p).sqrt e (xbuf 3 2 x3) (roundAll (binary p) (flat 2 2 wfR)) 0 2 3 2 r →
    Cuda.reconstructN (α := Rn (binary p)) 32 32 (binary p).sqrt e' (xbuf 3 2 x3) (roundAll (binary p) (flat 2 2 wfR)) 0 2 3 2 r' →
    ∃ s s' : Recon.RState (Rn (binary p)), r = .ok s ∧ r' = .ok s' ∧ Within (1 / 1000) s.weights s'.weights := by
  obtain ⟨st, h⟩ := wfR_succeeds
  obtain ⟨p0, hp⟩ := C93_reproducible (B := 32) (Q := 32) (by norm_num) (by norm_num) (by norm_num) (by norm_num) (by norm_num)
    x3_inRange wfR 0 h (show (0 : ℝ) < 1 / 1000 by norm_num)
  refine ⟨p0, fun p hpp e e' r r' hr hr' => ?_⟩
  obtain ⟨s, s', h1, h2, h3, _⟩ := hp p hpp e e' r r' hr (Or.inl hr')
  exact ⟨s, s', h1, h2, h3⟩

/-- ten times a tenth, added on the device in double precision: between `1 - 10⁻¹⁴` and `1 + 10⁻¹⁴` -/
noncomputable def tenths : List ℝ := List.replicate 10 (1 / 10)

example {r : M (Rn (binary 53))} (h : cpSum (α := Rn (binary 53)) tenths r) : ∃ v : ℝ, r = .ok v ∧ |v - 1| ≤ 1 / 10 ^ 14 := by
  obtain ⟨v, h1, h2⟩ := C93_sum (binary_accurate (p := 53) (by norm_num)) (by positivity) h
  refine ⟨v, h1, ?_⟩
  have e1 : List.sum tenths = 1 := by norm_num [tenths]
  have e2 : (List.map (fun v : ℝ => |v|) tenths).sum = 1 := by norm_num [tenths]
  have e3 : tenths.length = 10 := by simp [tenths]
  have h3 : |v - List.sum tenths| ≤ ((1 + (2 : ℝ) ^ (-(53 : ℤ))) ^ (tenths.length + 1) - 1) * (List.map (fun v : ℝ => |v|) tenths).sum := h2
  rw [e1, e2, e3] at h3
  exact h3.trans (by norm_num)

example : ∃ r, cpSum (α := Rn (binary 53)) tenths r := ⟨_, cpSum_foldl (α := Rn (binary 53)) tenths⟩

end Verif.Props
