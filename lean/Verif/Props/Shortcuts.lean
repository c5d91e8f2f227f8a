import Verif.Model.Shortcuts
import Verif.Props.RunFile

/-!
# Properties of the shortcuts (C108)
-/

set_option linter.unusedSectionVars false

namespace Verif.Props
open Verif.Part Verif.Psi Verif.Mch Verif.Asrt Verif.Spec Verif.Run Verif.Inp Verif.Prof Finset

variable {S K : Type} [Field K] [LinearOrder K] [IsStrictOrderedRing K] [FloorRing K]

/-! ## a waterfall whose rows have been rescaled -/

/-- `a` is `wf` with every row multiplied by some positive number -/
def Rescaled (P nb : ℕ) (wf : ℕ → ℕ → K) (a : Arr2 K) : Prop :=
  ∃ c : ℕ → K, (∀ p, 0 < c p) ∧ a = arr P nb fun p b => c p * wf p b

theorem Rescaled.refl (P nb : ℕ) (wf : ℕ → ℕ → K) : Rescaled P nb wf (arr P nb wf) :=
  ⟨fun _ => 1, fun _ => one_pos, arr_congr fun _ _ _ _ => (one_mul _).symm⟩

theorem initWaterfall_rows {n m : ℕ} {c : ℕ → K} (hc : ∀ p, 0 < c p) (hm : 0 < m) (g : ℕ → ℕ → K) :
    Tomo.initWaterfall (flat n m fun i j => c i * g i j) n m = Tomo.initWaterfall (flat n m g) n m := by
  obtain ⟨i1, i2, i3⟩ := initWaterfall_char (nprof := n) hm g
  obtain ⟨j1, j2, j3⟩ := initWaterfall_char (nprof := n) hm fun i j => c i * g i j
  have hpos : ∀ p b, 0 < c p * g p b ↔ 0 < g p b := fun p b => mul_pos_iff_of_pos_left (hc p)
  have hle : ∀ p b, c p * g p b ≤ 0 ↔ g p b ≤ 0 := fun p b => by
    rw [← not_lt, ← not_lt, hpos]
  simp only [hpos, hle] at j1 j2 j3
  by_cases ha : ∀ p b, p < n → b < m → g p b ≤ 0
  · rw [i1 ha, j1 ha]
  · have ha' : ∃ p b, p < n ∧ b < m ∧ 0 < g p b := by
      push Not at ha
      exact ha
    by_cases hb : ∃ p, p < n ∧ ∀ b, b < m → g p b ≤ 0
    · rw [i2 ha' hb, j2 ha' hb]
    · have hb' : ∀ p, p < n → ∃ b, b < m ∧ 0 < g p b := by
        push Not at hb
        exact hb
      rw [i3 ha' hb', j3 ha' hb']
      congr 1
      apply flat_congr
      intro p b _ _
      unfold normRows rowSum
      have : ∀ p b, max (c p * g p b) 0 = c p * max (g p b) 0 := fun p b => by
        rw [mul_max_of_nonneg _ _ (hc p).le, mul_zero]
      simp only [this, ← mul_sum]
      rw [mul_div_mul_left _ _ (hc p).ne']

/-- the factors do not matter to a reconstruction -/
theorem Rescaled.tomogram {P nb : ℕ} {wf : ℕ → ℕ → K} {a : Arr2 K} (h : Rescaled P nb wf a) (sqrt : K → K)
    (x y : Arr2 ℤ) (niter : ℕ) : Run.tomogram sqrt a x y niter = Run.tomogram sqrt (arr P nb wf) x y niter := by
  obtain ⟨c, hc, rfl⟩ := h
  rcases Nat.eq_zero_or_pos nb with rfl | hb
  · rfl
  unfold Run.tomogram
  have h1 : ∀ g : ℕ → ℕ → K, (arr P nb g).flatten = flat P nb g := fun g => flatten_tab P nb g
  rw [h1, h1]
  simp only [arr_rows, arr_cols, length_tab]
  rw [initWaterfall_rows hc hb]

/-! ## `show` -/

theorem mem_tab_iff {α : Type} {n : ℕ} {g : ℕ → α} {v : α} : v ∈ tab n g ↔ ∃ k < n, g k = v := by
  simp only [List.mem_iff_getElem?, getElem?_tab]
  constructor
  · rintro ⟨k, h⟩
    split_ifs at h with hk
    exact ⟨k, hk, by simpa using h⟩
  · rintro ⟨k, hk, rfl⟩
    exact ⟨k, if_pos hk⟩


theorem npGet_tab_ok {α : Type} {n : ℕ} {g : ℕ → α} {i : ℤ} {v : α} (h : npGet (tab n g) i = .ok v) :
    ∃ k < n, (if i < 0 then i + (n : ℤ) else i) = (k : ℤ) ∧ v = g k := by
  unfold npGet at h
  dsimp only at h
  rw [length_tab] at h
  generalize (if i < 0 then i + (n : ℤ) else i) = z at h ⊢
  split_ifs at h with hz
  rw [getElem?_tab] at h
  split_ifs at h with hn
  · cases h
    exact ⟨z.toNat, hn, by omega, rfl⟩

theorem show_rescaled {P nb : ℕ} {wf : ℕ → ℕ → K} (hsum : ∀ p, p < P → 0 < ∑ b ∈ range nb, wf p b) {s s' : Short.Sess K}
    (h : Rescaled P nb wf s.waterfall) {idx : ℤ} (hs : Short.show_ s idx = .ok s') :
    s'.dEbin = s.dEbin ∧ Rescaled P nb wf s'.waterfall := by
  obtain ⟨c, hc, hw⟩ := h
  unfold Short.show_ at hs
  obtain ⟨row, hrow, hs⟩ := bind_inv hs
  obtain ⟨row', hrow', hs⟩ := bind_inv hs
  cases hs
  refine ⟨rfl, ?_⟩
  rw [hw, arr_rows] at hrow
  obtain ⟨k, hk, hi, rfl⟩ := npGet_tab_ok hrow
  rw [hw]
  simp only [arr_rows, arr_cols, length_tab]
  rw [hi, Int.toNat_natCast]
  rw [sum_tab, ← mul_sum] at hrow'
  have hpos : 0 < c k * ∑ b ∈ range nb, wf k b := mul_pos (hc k) (hsum k hk)
  have : (tab nb fun b => c k * wf k b).mapM (fun v => FDiv.fdiv v (c k * ∑ b ∈ range nb, wf k b))
      = .ok (tab nb fun b => c k * wf k b / (c k * ∑ b ∈ range nb, wf k b)) :=
    mapM_tab (g := fun v => v / (c k * ∑ b ∈ range nb, wf k b)) _ _ fun b _ => fdiv_ok hpos.ne'
  rw [this] at hrow'
  cases hrow'
  refine ⟨fun p => if p = k then 1 / ∑ b ∈ range nb, wf k b else c p, ?_, ?_⟩
  · intro p
    dsimp only
    split_ifs
    · exact one_div_pos.mpr (hsum k hk)
    · exact hc p
  · unfold arr
    rw [set_tab]
    congr 1
    apply tab_congr
    intro p _
    dsimp only
    split_ifs with hp
    · subst hp
      apply tab_congr
      intro b _
      have := (hc p).ne'
      have := (hsum p hk).ne'
      field_simp
    · rfl

/-! ## `track` -/

/-- what `track` returns and leaves behind does not depend on earlier calls -/
theorem track_run (L : MathLib K) (m : Run.Mach K) (past : K) (s : Short.Sess K) (r : ℤ) :
    (Short.track L m past s (some r)).2
      = (newTracker m >>= fun _ => trackCoords L m past r >>= fun t => ready t.xp t.yp m.nbins) ∧
    (Short.track L m past s (some r)).1.waterfall = s.waterfall ∧
    ∀ k t, newTracker m = .ok k → trackCoords L m past r = .ok t →
      (Short.track L m past s (some r)).1.dEbin = some t.dEbin := by
  unfold Short.track
  cases newTracker m with
  | error e => exact ⟨rfl, rfl, fun _ _ h => by cases h⟩
  | ok k =>
  dsimp only
  rw [bind_ok]
  have hun : trackCoords L m past r
      = (Run.track L m past r >>= fun q => physicalToCoords m.toArea q.xorigin q.dEbin q.xp q.yp >>= fun (x, y) =>
        pure ⟨q.xorigin, q.dEbin, x, y⟩) := rfl
  cases hk : Track.trackCheck m.nprofiles m.dturns r 0 with
  | error e =>
    have ht : Run.track L m past r = .error (.exc e) := by
      unfold Run.track
      rw [hk]
    rw [hun, ht]
    exact ⟨rfl, rfl, fun _ _ _ h => by cases h⟩
  | ok z =>
  dsimp only
  cases hl : findLimits L m.toArea with
  | error e =>
    have ht : Run.track L m past r = .error e := by
      unfold Run.track
      rw [hk]
      dsimp only
      rw [hl]
      rfl
    rw [hun, ht]
    exact ⟨rfl, rfl, fun _ _ _ h => by cases h⟩
  | ok l =>
  obtain ⟨xo, dE, l⟩ := l
  refine ⟨rfl, rfl, fun _ t _ h => ?_⟩
  dsimp only
  rw [hun] at h
  obtain ⟨q, hq, h⟩ := bind_inv h
  obtain ⟨xy, _, h⟩ := bind_inv h
  cases h
  dsimp only
  unfold Run.track at hq
  rw [hk] at hq
  dsimp only at hq
  rw [hl, bind_ok] at hq
  obtain ⟨_, _, hq⟩ := bind_inv hq
  obtain ⟨_, _, hq⟩ := bind_inv hq
  cases hq
  rfl

theorem track_waterfall (L : MathLib K) (m : Run.Mach K) (past : K) (s : Short.Sess K) (r : Option ℤ) :
    (Short.track L m past s r).1.waterfall = s.waterfall := by
  cases r with
  | some r => exact (track_run L m past s r).2.1
  | none =>
    unfold Short.track
    cases newTracker m <;> rfl

/-! ## sessions -/

theorem session_rescaled {P nb : ℕ} {wf : ℕ → ℕ → K} (hsum : ∀ p, p < P → 0 < ∑ b ∈ range nb, wf p b) (L : MathLib K)
    (m : Run.Mach K) (past : K) (cs : List (Short.Call K)) (s : Short.Sess K) (h : Rescaled P nb wf s.waterfall) :
    Rescaled P nb wf (Short.session L m past s cs).waterfall := by
  induction cs generalizing s with
  | nil => exact h
  | cons c cs ih =>
    apply ih
    cases c with
    | track r =>
      change Rescaled P nb wf (Short.track L m past s r).1.waterfall
      rw [track_waterfall]
      exact h
    | tomogram => exact h
    | density => exact h
    | show_ i =>
      change Rescaled P nb wf (match Short.show_ s i with | .ok s' => s' | .error _ => s).waterfall
      cases hs : Short.show_ s i with
      | error e => exact h
      | ok s' => exact (show_rescaled hsum h hs).2

theorem session_noShow (L : MathLib K) (m : Run.Mach K) (past : K) (cs : List (Short.Call K)) (hno : ∀ i, .show_ i ∉ cs)
    (s : Short.Sess K) : (Short.session L m past s cs).waterfall = s.waterfall := by
  induction cs generalizing s with
  | nil => rfl
  | cons c cs ih =>
    have h := ih (fun i hi => hno i (List.mem_cons_of_mem _ hi)) (Short.after L m past s c)
    change (Short.session L m past (Short.after L m past s c) cs).waterfall = _
    rw [h]
    cases c with
    | track r => exact track_waterfall L m past s r
    | tomogram => rfl
    | density => rfl
    | show_ i => exact absurd List.mem_cons_self (hno i)

/-- what `run` does after loading, by hand, on a waterfall that gives the same reconstructions -/
theorem hand_run {L : MathLib K} {m : Run.Mach K} {past : K} {wf : Arr2 K} {s : Short.Sess K}
    (h : ∀ x y, Run.tomogram L.sqrt s.waterfall x y m.niter = Run.tomogram L.sqrt wf x y m.niter) (self : M (Tracked K))
    (idx : ℤ) :
    (do
      let (s, r) := Short.track L m past s (some idx)
      let (x, y) ← r
      let o ← Short.tomogram L s x y m.niter
      let (tr, er, d) ← Short.density m s x y o.st.weights idx
      pure (tr, er, d, o.st.discr))
    = (runMachine L m past self wf (some idx) false).map fun o => (o.tRange, o.eRange, o.density, o.diff) := by
  obtain ⟨h1, h2, h3⟩ := track_run L m past s idx
  revert h1 h2 h3
  generalize Short.track L m past s (some idx) = tr
  obtain ⟨s1, r⟩ := tr
  rintro h1 h2 h3
  dsimp only at h1 h2 h3 ⊢
  rw [h1]
  unfold runMachine
  cases hk : newTracker m with
  | error e => rfl
  | ok k =>
  have hself : k.selfField = false := by
    unfold newTracker at hk
    split_ifs at hk
    cases hk
    rfl
  simp only [bind_ok, Option.getD_some, Bool.false_eq_true, if_false]
  unfold coordinates
  rw [if_neg (by rw [hself]; decide)]
  cases ht : trackCoords L m past idx with
  | error e => rfl
  | ok t =>
  have hd := h3 k t hk ht
  simp only [bind_ok]
  cases hr : ready t.xp t.yp m.nbins with
  | error e => rfl
  | ok xy =>
  obtain ⟨x, y⟩ := xy
  simp only [bind_ok, pure_eq_ok]
  unfold Short.tomogram
  rw [h2, h]
  cases ho : Run.tomogram L.sqrt wf x y m.niter with
  | error e => rfl
  | ok o =>
  simp only [bind_ok]
  unfold Short.density
  rw [hd]
  cases hp : Img.phaseSpace x y o.st.weights m.nbins m.synchPartX m.synchPartY m.dtbin (some t.dEbin) idx with
  | error e => rfl
  | ok q =>
  obtain ⟨a, b, c⟩ := q
  simp only [bind_ok]
  cases normalise c with
  | error e => rfl
  | ok d => rfl

/-! ## C108 -/

/-- C108: the shortcuts, called one after the other, do what `run` does, whatever was called before on the same machine and
waterfall: tracking from other profiles, reconstructions with other points and iterations, images, plots of the result (which
change the waterfall), calls that ended with an exception.  Same axes, same density, same discrepancies, same exception, for
every file and every reconstructed profile.  Every profile of the waterfall has a positive sample. -/
theorem C108_same_as_run_partial {L : MathLib K} (hc : L.c ≠ 0) (R : Reader S K) (qe past : K) (self : M (Tracked K))
    (params : List S) (data : List K)
    (hrows : ∀ m wf, loadFile L R qe params data = .ok (m, wf) → ∀ row ∈ wf.rows, ∃ v ∈ row, 0 < v)
    (cs : List (Short.Call K)) (idx : ℤ) :
    Short.byHand L R qe past params data cs idx
      = (runFile L R qe past self params data (some idx) false).map fun o => (o.tRange, o.eRange, o.density, o.diff) := by
  unfold Short.byHand runFile
  cases hl : loadFile L R qe params data with
  | error e => rfl
  | ok mw =>
  obtain ⟨m, wf⟩ := mw
  obtain ⟨d, nf, sf, nb, s0, s1, rbn, ref, dt, A, _, _, _, _, _, _, _, _, rfl, _⟩ := C69_loaded hc hl
  set g := treated (nb - s0 - s1) rbn ref (rawAt nb sf s0 data) with hg
  have hsum : ∀ p, p < nf - sf → 0 < ∑ b ∈ range m.nbins, g p b := by
    intro p hp
    have hmem : tab m.nbins (g p) ∈ (arr (nf - sf) m.nbins g).rows := by
      rw [arr_rows]
      exact mem_tab_iff.mpr ⟨p, hp, rfl⟩
    obtain ⟨v, hv, h0⟩ := hrows _ _ hl _ hmem
    obtain ⟨b, hb, rfl⟩ := mem_tab_iff.mp hv
    exact sum_pos' (fun b _ => le_max_right _ _) ⟨b, mem_range.mpr hb, h0⟩
  simp only [bind_ok]
  exact hand_run (fun x y => (session_rescaled hsum L m past cs ⟨none, _⟩ (Rescaled.refl _ _ _)).tomogram L.sqrt x y m.niter)
    self idx

/-- C108, without plots: no condition on the profiles -/
theorem C108_without_show (L : MathLib K) (R : Reader S K) (qe past : K) (self : M (Tracked K)) (params : List S) (data : List K)
    (cs : List (Short.Call K)) (hno : ∀ i, .show_ i ∉ cs) (idx : ℤ) :
    Short.byHand L R qe past params data cs idx
      = (runFile L R qe past self params data (some idx) false).map fun o => (o.tRange, o.eRange, o.density, o.diff) := by
  unfold Short.byHand runFile
  cases hl : loadFile L R qe params data with
  | error e => rfl
  | ok mw =>
  obtain ⟨m, wf⟩ := mw
  simp only [bind_ok]
  exact hand_run (fun x y => by rw [session_noShow L m past cs hno]) self idx

/-- an image asked for before anything was tracked, whatever else was called, is refused -/
theorem C108_needs_track (L : MathLib K) (m : Run.Mach K) (past : K) (wf : Arr2 K) (cs : List (Short.Call K))
    (hno : ∀ r, .track (some r) ∉ cs) (x y : Arr2 ℤ) (w : List K) (idx : ℤ) :
    Short.density m (Short.session L m past ⟨none, wf⟩ cs) x y w idx = .error (.exc .inputError) := by
  have key : ∀ (cs : List (Short.Call K)) (s : Short.Sess K), (∀ r, .track (some r) ∉ cs) → s.dEbin = none →
      (Short.session L m past s cs).dEbin = none := by
    intro cs
    induction cs with
    | nil => exact fun _ _ h => h
    | cons c cs ih =>
      intro s hno hs
      refine ih (Short.after L m past s c) (fun r hr => hno r (List.mem_cons_of_mem _ hr)) ?_
      cases c with
      | track r =>
        cases r with
        | some r => exact absurd List.mem_cons_self (hno r)
        | none =>
          change (Short.track L m past s none).1.dEbin = none
          unfold Short.track
          cases newTracker m <;> exact hs
      | tomogram => exact hs
      | density => exact hs
      | show_ i =>
        change (match Short.show_ s i with | .ok s' => s' | .error _ => s).dEbin = none
        cases h : Short.show_ s i with
        | error e => exact hs
        | ok s' =>
          unfold Short.show_ at h
          obtain ⟨_, _, h⟩ := bind_inv h
          obtain ⟨_, _, h⟩ := bind_inv h
          cases h
          exact hs
  unfold Short.density
  rw [key cs _ hno rfl]
  rfl

/-- C108 fails: the default value of the argument `reconstruction_idx` never works.  `track(machine)` raises for every machine
and after any calls: a MachineParameterError if the position of the synchronous particle is negative, a TypeError otherwise. -/
theorem C108_violated_default (L : MathLib K) (m : Run.Mach K) (past : K) (s : Short.Sess K) :
    (Short.track L m past s none).2 = .error (.exc (if m.synchPartX < 0 then .machineParameterError else .typeError)) := by
  unfold Short.track newTracker
  by_cases h : m.synchPartX < 0
  · rw [if_pos h, if_pos h]
  · rw [if_neg h, if_neg h]

/-- the waterfall left by `show` -/
def shown (w : Arr2 ℚ) (idx : ℤ) : Verif.M (Arr2 ℚ) := (Short.show_ ⟨some 1, w⟩ idx).map fun s => s.waterfall

/-- C108 fails for `show`: plotting a result changes the measured waterfall.  The charge of the reference profile computed
afterwards is another one; with measured noise, where the sum of a profile can be negative, so is the profile that is
reconstructed. -/
theorem C108_violated_show :
    (profileCharge (⟨2, [[1, 2], [2, 3]]⟩ : Arr2 ℚ) 0 1 1 1 = .ok 3 ∧
      (shown ⟨2, [[1, 2], [2, 3]]⟩ 0 >>= fun w => profileCharge w 0 1 1 1) = .ok 1) ∧
    (Tomo.initWaterfall (⟨2, [[-3, 1], [1, 1]]⟩ : Arr2 ℚ).flatten 2 2 = .ok [0, 1, 1 / 2, 1 / 2] ∧
      (shown ⟨2, [[-3, 1], [1, 1]]⟩ 0 >>= fun w => Tomo.initWaterfall w.flatten 2 2) = .ok [1, 0, 1 / 2, 1 / 2]) := by
  decide +kernel

/-- C108 fails for `show`: a profile without samples is filled with values that are not numbers, and the measured data are
lost -/
theorem C108_violated_empty : shown ⟨2, [[0, 0], [1, 1]]⟩ 0 = .error .nonFinite := by decide +kernel

/-- a plot and other calls before, the same result as `run` -/
example : (Short.byHand libQ textReader 1 7 (fileLines fileVals) fileRaw
      [.track (some 2), .show_ 1, .show_ (-1), .track (some 7), .show_ 1] 0).map (fun o => o.2.2.1)
    = .ok [0, 9025/351649, 6564/351649, 0, 0, 118610/1054947, 102023/1054947, 56686/1054947, 0, 33959/351649, 28430/351649,
      87964/1054947, 0, 489385/2109894, 255463/2109894, 83306/1054947] := by decide +kernel

example : ∀ m wf, loadFile libQ textReader 1 (fileLines fileVals) fileRaw = .ok (m, wf) → ∀ row ∈ wf.rows, ∃ v ∈ row, 0 < v := by
  intro m wf h
  have : (loadFile libQ textReader 1 (fileLines fileVals) fileRaw).map (fun r => r.2.rows)
    = .ok [[6, 22, 21, 20], [6, 22, 21, 20], [6, 22, 21, 20]] := by decide +kernel
  rw [h] at this
  have e : wf.rows = [[6, 22, 21, 20], [6, 22, 21, 20], [6, 22, 21, 20]] := by
    injection this
  rw [e]
  decide +kernel

end Verif.Props
