import Verif.Lemmas.SelfField
import Verif.Lemmas.TrackingLaws
import Verif.Props.Area
import Verif.Props.Tracking
import Mathlib.Data.Rat.Floor

/-!
# Self fields (C44, C45, C62, C63)
-/

set_option linter.unusedSectionVars false

namespace Verif.Props
open Verif.SelfF Verif.Mch
open Verif.Spec (SelfProgram AgreesS SelfSetup refOmega bin edgePhase fwdS bwdS upS downS transportS transport Program Agrees rows)
open Verif.Track (trackCheck)
variable {K : Type} [Field K] [LinearOrder K] [IsStrictOrderedRing K] [FloorRing K]

/-! ## The wrap interval -/

section setup
variable {sm : SMach K} {m : Track.Mach K} {phi12 : K} {f : SF K} {P N d : ℕ} {R : Program K} {w b : ℕ → K}

theorem setup_dradBin (S : SelfSetup sm m phi12 f P N d R w b) :
    dradBin sm = .ok (sm.hNum * refOmega sm.bdot w N * sm.dtbin) := by
  have hN : 1 ≤ N := by
    rw [S.turns]; exact Nat.mul_pos (by have := S.two; omega) S.dpos
  unfold dradBin refOmega
  rw [S.omega]
  by_cases h : 0 < sm.bdot
  · have hz : ((sm.nprofiles : Int) - 1) * sm.dturns - 1 = ((N - 1 : ℕ) : Int) := by
      have h1 : ((P - 1 : ℕ) : Int) = (P : Int) - 1 := by have := S.two; omega
      have h2 : (N : Int) = ((P : Int) - 1) * d := by rw [S.turns, Nat.cast_mul, h1]
      rw [S.profiles, S.dturns, ← h2]; omega
    simp only [if_pos h, hz]
    rw [npGet_tab _ (by omega), bind_ok]; rfl
  · simp only [if_neg h]
    have := npGet_tab (n := N + 1) (i := 0) w (by omega)
    rw [show ((0 : ℕ) : Int) = 0 from rfl] at this
    rw [this, bind_ok]; rfl

theorem refOmega_pos (S : SelfSetup sm m phi12 f P N d R w b) : 0 < refOmega sm.bdot w N := by
  unfold refOmega; split <;> exact S.omega_pos _

/-- C44, the wrap interval: a whole number of RF periods, the least that covers the image at the reference turn; the table has
the least number of columns covering it, and never fewer than the image. -/
theorem C44_wrap_interval (S : SelfSetup sm m phi12 f P N d R w b) (L : MathLib K) (hpi : 0 < L.pi) :
    ∃ (wr : K) (l k : ℕ), findWrapLength L sm = .ok (wr, (l : Int)) ∧ wr = k * (2 * L.pi) ∧
      sm.nbins * (sm.hNum * refOmega sm.bdot w N * sm.dtbin) ≤ wr ∧
      wr < sm.nbins * (sm.hNum * refOmega sm.bdot w N * sm.dtbin) + 2 * L.pi ∧
      wr ≤ l * (sm.hNum * refOmega sm.bdot w N * sm.dtbin) ∧
      l * (sm.hNum * refOmega sm.bdot w N * sm.dtbin) < wr + sm.hNum * refOmega sm.bdot w N * sm.dtbin ∧ sm.nbins ≤ l :=
  findWrapLength_ok (setup_dradBin S) (mul_pos (mul_pos S.h_pos (refOmega_pos S)) S.dt_pos) hpi

/-- C63: the voltage table.  Given filtered profiles `D` and charge `Q`, `calc_self_fields` succeeds and stores, for the interval
between profiles `p` and `p + 1` and bin `j` of the image, half the charge times the sum of slope times coefficient of the two
profiles; zero for the columns beyond the image. -/
theorem C63_table (S : SelfSetup sm m phi12 f P N d R w b) (L : MathLib K) (hpi : 0 < L.pi) (e tiny Q : K)
    (savgol : Arr2 K → M (Arr2 K)) (wf : Arr2 K) (src : Source K) (o : SelfObj K) (D : ℕ → ℕ → K)
    (hD : filtered savgol wf src = .ok (arr P sm.nbins D)) :
    ∃ (wr : K) (l : ℕ), findWrapLength L sm = .ok (wr, (l : Int)) ∧
      calcSelfFields L e tiny savgol sm wf (some Q) src o =
        (⟨some (arr P sm.nbins D), some wr, some (l : Int), some (tab (P - 1) fun p => tab (l + 1) fun j =>
          if j < sm.nbins then 1 / 2 * Q *
            (Spec.selfCoeff e L.pi tiny L.c sm.gCoupling sm.zwallOverN sm.dtbin (w (p * d)) (b (p * d)) * D p j
            + Spec.selfCoeff e L.pi tiny L.c sm.gCoupling sm.zwallOverN sm.dtbin (w ((p + 1) * d)) (b ((p + 1) * d)) * D (p + 1) j)
              else 0)⟩, none) := by
  obtain ⟨wr, l, k, h1, -, -, -, -, -, h7⟩ := C44_wrap_interval S L hpi
  refine ⟨wr, l, h1, ?_⟩
  have hle : ∀ p, p < sm.nprofiles → p * d < N + 1 := by
    intro p hp
    rw [S.profiles] at hp
    have : p * d ≤ (P - 1) * d := Nat.mul_le_mul_right _ (by omega)
    rw [S.turns]; omega
  have hs := selfFieldCoeffs_ok (L := L) (e := e) (tiny := tiny) (m := sm) (d := d) (w := fun p => w (p * d))
    (b := fun p => b (p * d)) S.dturns
    (fun p hp => ⟨by rw [S.omega]; exact some_tab _ (hle p hp), (S.omega_pos _).ne'⟩)
    (fun p hp => ⟨by rw [S.beta]; exact some_tab _ (hle p hp), S.beta_ne _⟩) S.dt_pos.ne'
  have hc := calculateSelf_ok (charge := Q) (l := l) D hs h7
  rw [S.profiles] at hc
  simp only [calcSelfFields, hD, h1, hc]
  rfl

/-- C63: without a profile charge, or with filtered profiles that are not an array of the shape of the waterfall, the call is
refused and the object unchanged. -/
theorem C63_refused (L : MathLib K) (e tiny : K) (savgol : Arr2 K → M (Arr2 K)) (sm : SMach K) (wf : Arr2 K)
    (o : SelfObj K) :
    (∀ src, calcSelfFields L e tiny savgol sm wf none src o = (o, some (.exc .profileChargeNotCalculated))) ∧
    (∀ Q, calcSelfFields L e tiny savgol sm wf (some Q) (.given none) o = (o, some (.exc .filteredProfilesError))) ∧
    (∀ Q a, ¬ (a.rows.length = wf.rows.length ∧ a.cols = wf.cols) →
      calcSelfFields L e tiny savgol sm wf (some Q) (.given (some a)) o = (o, some (.exc .filteredProfilesError))) := by
  refine ⟨fun src => rfl, fun Q => rfl, fun Q a h => ?_⟩
  simp only [calcSelfFields, filtered, checkFiltered, if_neg h]

/-! ## The lookups -/

/-- C44 (partial): `calc_self_fields` followed by `track` never raises and every stored position lies inside one wrap interval,
provided the frequency of no turn is below the reference frequency by more than one part in `wrap_length + 1` (`hslack`); no
condition on phases, energies, voltages or the number of particles.  Without `hslack` the statement is false, see
`C44_violated_acceleration`. -/
theorem C44_calc_then_track_partial (S : SelfSetup sm m phi12 f P N d R w b) (L : MathLib K) (hpi : 0 < L.pi)
    (e tiny Q : K) (savgol : Arr2 K → M (Arr2 K)) (wf : Arr2 K) (src : Source K) (o : SelfObj K) (D : ℕ → ℕ → K)
    (hD : filtered savgol wf src = .ok (arr P sm.nbins D)) (sin : K → K) :
    ∃ (o' : SelfObj K) (wr : K) (l : ℕ) (v : List (List K)), calcSelfFields L e tiny savgol sm wf (some Q) src o = (o', none) ∧
      o'.phiwrap = some wr ∧ o'.wrapLength = some (l : Int) ∧ o'.vself = some v ∧
      ((∀ t, t ≤ N → l * refOmega sm.bdot w N ≤ ((l : K) + 1) * w t) →
        ∀ (recprof deltaturn r : Int), trackCheck P d recprof deltaturn = .ok r →
        ∀ (n : ℕ) (dphi denergy : List K), dphi.length = n → denergy.length = n →
        ∃ X Y : ℕ → ℕ → K, trackSelf sin m phi12 { f with phiwrap := wr, vself := v } d P recprof deltaturn dphi denergy
            = .ok (rows P n X, rows P n Y) ∧
          ∀ p, p < P → ∀ i, i < n → 0 ≤ X p i ∧ X p i * (sm.hNum * w (p * d) * sm.dtbin) < wr) := by
  obtain ⟨wr, l, h1, h2⟩ := C63_table S L hpi e tiny Q savgol wf src o D hD
  obtain ⟨wr', l', k, h1', hk, hcov, -, hwl, -, -⟩ := C44_wrap_interval S L hpi
  rw [h1] at h1'
  obtain ⟨rfl, hl⟩ : wr = wr' ∧ (l : Int) = l' := by
    have := Except.ok.inj h1'; exact ⟨congrArg Prod.fst this, congrArg Prod.snd this⟩
  obtain rfl : l = l' := by omega
  have hwr : 0 < wr := lt_of_lt_of_le
    (mul_pos (Nat.cast_pos.2 S.nbins) (mul_pos (mul_pos S.h_pos (refOmega_pos S)) S.dt_pos)) hcov
  refine ⟨_, wr, l, _, h2, rfl, rfl, rfl, fun hslack recprof deltaturn r hr n dphi denergy hn1 hn2 => ?_⟩
  have : Inhabited K := ⟨0⟩
  set v : ℕ → ℕ → K := fun p j => if j < sm.nbins then 1 / 2 * Q * (coeff L e tiny sm (w (p * d)) (b (p * d)) * D p j
            + coeff L e tiny sm (w ((p + 1) * d)) (b ((p + 1) * d)) * D (p + 1) j) else 0 with hv
  let F : SelfProgram K := ⟨R, fun t => sm.hNum * w t * sm.dtbin, f.xorigin, wr, f.q,
    fun p z => if z = -1 then v p l else v p z.toNat, d⟩
  have hdp : ∀ t, 0 < F.drad t := fun t => mul_pos (mul_pos S.h_pos (S.omega_pos t)) S.dt_pos
  have hA : AgreesS m phi12 { f with phiwrap := wr, vself := tab (P - 1) fun p => tab (l + 1) (v p) } P N l F := by
    refine ⟨S.mach, fun t ht => ⟨w t, ?_, ?_⟩, ⟨v, rfl, fun p j => ?_, fun p => ?_⟩, rfl, rfl, rfl, S.dEbin, hwr,
      fun t _ => hdp t⟩
    · show f.omegaRev0[t]? = _
      rw [S.same_omega, S.omega]; exact some_tab _ (by omega)
    · show f.hNum * w t * f.dtbin = _
      rw [S.same_h, S.same_dt]
    · show (if ((j : Int)) = -1 then v p l else v p ((j : Int)).toNat) = v p j
      rw [if_neg (by omega), Int.toNat_natCast]
    · show (if (-1 : Int) = -1 then v p l else v p (-1 : Int).toNat) = v p l
      rw [if_pos rfl]
  have hwrap : ∀ t, t ≤ N → F.wrap ≤ ((l : K) + 1) * F.drad t := by
    intro t ht
    have h := mul_le_mul_of_nonneg_right (mul_le_mul_of_nonneg_left (hslack t ht) S.h_pos.le) S.dt_pos.le
    show wr ≤ ((l : K) + 1) * (sm.hNum * w t * sm.dtbin)
    calc wr ≤ l * (sm.hNum * refOmega sm.bdot w N * sm.dtbin) := hwl
      _ = sm.hNum * (l * refOmega sm.bdot w N) * sm.dtbin := by ring
      _ ≤ sm.hNum * (((l : K) + 1) * w t) * sm.dtbin := h
      _ = _ := by ring
  have hrn : 0 ≤ r ∧ r < P := by
    have hr' := hr
    unfold trackCheck at hr'
    rcases index_cases (P : Int) recprof with ⟨r', he, hn⟩ | ⟨he, -⟩
    · rw [he] at hr'
      simp only [bind, Except.bind] at hr'
      split at hr'
      · cases hr'
      · split at hr'
        · cases hr'
        · split at hr'
          · cases hr'
          · cases hr'; exact ⟨hn.1, hn.2.1⟩
    · rw [he] at hr'; cases hr'
  obtain ⟨r, rfl⟩ : ∃ k : ℕ, r = k := ⟨r.toNat, by omega⟩
  have e1 : dphi = tab n fun i => dphi.getD i default := by
    subst hn1; exact eq_tab_of_length _
  have e2 : denergy = tab n fun i => denergy.getD i default := by
    subst hn2; exact eq_tab_of_length _
  have htr := kickAndDriftSelf_run (sin := sin) (n := n) hA hwrap S.dpos S.turns (r := r) (by omega)
    (fun i => (dphi.getD i default, denergy.getD i default))
  dsimp only at htr
  rw [← e1, ← e2] at htr
  have htr' : ∀ g, trackSelf sin m phi12 g d P recprof deltaturn dphi denergy
      = kickAndDriftSelf sin m phi12 g d P r denergy dphi := by
    intro g; unfold trackSelf; rw [hr]
  exact ⟨_, _, (htr' _).trans htr, fun p hp i hi =>
    ⟨bin_nonneg hwr (hdp _) _, (lt_div_iff₀ (hdp _)).1 (bin_lt hwr (hdp _) _)⟩⟩

/-- C44: with a constant revolution frequency nothing is missing. -/
theorem C44_constant_frequency (S : SelfSetup sm m phi12 f P N d R w b) (hw : ∀ t, w t = w 0) (l : ℕ) :
    ∀ t, t ≤ N → l * refOmega sm.bdot w N ≤ ((l : K) + 1) * w t := by
  intro t _
  have e : refOmega sm.bdot w N = w t := by
    unfold refOmega; split
    · rw [hw (N - 1), hw t]
    · rw [hw t]
  rw [e]
  have := S.omega_pos t
  linarith [add_mul (l : K) 1 (w t)]

end setup

section lookups
variable {m : Track.Mach K} {phi12 : K} {f : SF K} {P N L : ℕ} {F : SelfProgram K}

theorem hit {t : ℕ} (hw : 0 < F.wrap) (hd : 0 < F.drad t) {k : ℕ} (hk : (k : K) * F.drad t < F.wrap) :
    bin F t (k * F.drad t - F.R.phi0 t + F.xorigin * F.drad t) = k := by
  have e : edgePhase F t (k * F.drad t - F.R.phi0 t + F.xorigin * F.drad t) = k * F.drad t := by unfold edgePhase; ring
  unfold bin
  rw [e]
  have h0 : ⌊(k : K) * F.drad t / F.wrap⌋ = 0 := by
    rw [Int.floor_eq_iff]
    refine ⟨by simpa using div_nonneg (mul_nonneg (Nat.cast_nonneg k) hd.le) hw.le, ?_⟩
    rw [div_lt_iff₀ hw]; simpa using hk
  rw [h0]; simp [hd.ne']

theorem lookup_far (hA : AgreesS m phi12 f P N L F) {p : ℕ} (hp : p < P - 1) {k : ℕ} {s : Int} (h : (L : Int) < k + s) :
    lookup f p s [(k : K)] = .error (.exc .indexError) := by
  obtain ⟨v, hv, -⟩ := hA.table
  unfold lookup
  rw [hv, npGet_tab _ hp, bind_ok]
  have ht : Psi.trunc (k : K) = k := by simp [Psi.trunc]
  simp only [List.mapM_cons, ht]
  have : npGet (tab (L + 1) (v p)) ((k : Int) + s) = .error (.exc .indexError) := by
    unfold npGet
    have h1 : ¬ ((k : Int) + s < 0) := by omega
    simp only [if_neg h1, if_pos (show (0 : Int) ≤ k + s by omega)]
    rw [List.getElem?_eq_none (by rw [length_tab]; omega)]
  rw [this]; rfl

/-- C44, exactly: on the way down the lookup at turn `t` succeeds for every phase if and only if the wrap interval is at most
`wrap_length + 1` bins of that turn. -/
theorem C44_down_lookup_iff (hA : AgreesS m phi12 f P N L F) {t p : ℕ} (ht : t ≤ N) (hp : p < P - 1) :
    (∀ φ : K, ∃ v, (calcXpSf f m.phi0 t [φ] >>= lookup f p 0) = .ok [v]) ↔ F.wrap ≤ ((L : K) + 1) * F.drad t := by
  have hd := hA.drad_pos t ht
  have hx : ∀ φ : K, calcXpSf f m.phi0 t [φ] = .ok [bin F t φ] := fun φ => calcXpSf_ok hA (n := 1) ht rfl fun _ => φ
  constructor
  · intro h
    by_contra hc
    rw [not_le] at hc
    have hc' : ((L + 1 : ℕ) : K) * F.drad t < F.wrap := by push_cast; exact hc
    obtain ⟨v, hv⟩ := h _
    rw [hx, hit hA.wrap_pos hd hc', bind_ok, lookup_far hA hp (by omega)] at hv
    cases hv
  · intro h φ
    refine ⟨F.V p ⌊bin F t φ⌋, ?_⟩
    rw [hx, bind_ok]
    exact lookup_down hA (n := 1) hp rfl (fun _ => bin F t φ) (fun _ _ => bin_nonneg hA.wrap_pos hd φ)
      fun _ _ => bin_lt_cols hA.wrap_pos hd h φ

/-- C44, exactly: on the way up the index is one smaller, so the interval may have one bin more. -/
theorem C44_up_lookup_iff (hA : AgreesS m phi12 f P N L F) {t p : ℕ} (ht : t ≤ N) (hp : p < P - 1) :
    (∀ φ : K, ∃ v, (calcXpSf f m.phi0 t [φ] >>= lookup f p (-1)) = .ok [v]) ↔ F.wrap ≤ ((L : K) + 2) * F.drad t := by
  have hd := hA.drad_pos t ht
  have hx : ∀ φ : K, calcXpSf f m.phi0 t [φ] = .ok [bin F t φ] := fun φ => calcXpSf_ok hA (n := 1) ht rfl fun _ => φ
  constructor
  · intro h
    by_contra hc
    rw [not_le] at hc
    have hc' : ((L + 2 : ℕ) : K) * F.drad t < F.wrap := by push_cast; exact hc
    obtain ⟨v, hv⟩ := h _
    rw [hx, hit hA.wrap_pos hd hc', bind_ok, lookup_far hA hp (by omega)] at hv
    cases hv
  · intro h φ
    refine ⟨F.V p (⌊bin F t φ⌋ - 1), ?_⟩
    rw [hx, bind_ok]
    refine lookup_up hA (n := 1) hp rfl (fun _ => bin F t φ) (fun _ _ => bin_nonneg hA.wrap_pos hd φ) fun _ _ => ?_
    have := bin_lt_cols (L := L + 1) hA.wrap_pos hd (by push_cast; rw [add_assoc, one_add_one_eq_two]; exact h) φ
    push_cast at this; exact this

/-- C44: phases that differ by a whole number of wrap intervals have the same position in the table, for every turn and every
table. -/
theorem C44_periodic (f : SF K) (hw : f.phiwrap ≠ 0) (phi0 : List K) (turn : Int) (n : ℕ) (φ : ℕ → K) (k : ℕ → ℤ) :
    calcXpSf f phi0 turn (tab n fun i => φ i + k i * f.phiwrap) = calcXpSf f phi0 turn (tab n φ) := by
  unfold calcXpSf
  congr 1; funext p0; congr 1; funext w
  unfold tab
  rw [List.mapM_map, List.mapM_map]
  congr 1; funext i
  exact xpSf_add hw _ _ _ _

/-! ## Reversibility -/

/-- C62: what the tracking computes.  For every table, every cloud and every start profile, all rows at once: on the way up each
turn adds the voltage of column `j - 1`, on the way down that of column `j`, where `j` is the bin of the particle at the end
(start) of the turn; both are added. -/
theorem C62_rows (hA : AgreesS m phi12 f P N L F) (sin : K → K)
    (hwrap : ∀ t, t ≤ N → F.wrap ≤ ((L : K) + 1) * F.drad t) (hd : 0 < F.d) (hN : N = (P - 1) * F.d) {r : ℕ} (hr : r < P)
    (n : ℕ) (c : ℕ → K × K) :
    kickAndDriftSelf sin m phi12 f F.d P r (tab n fun i => (c i).2) (tab n fun i => (c i).1)
      = .ok (rows P n fun p i => bin F (p * F.d) (transportS sin F (r * F.d) (p * F.d) (c i)).1,
             rows P n fun p i => (transportS sin F (r * F.d) (p * F.d) (c i)).2 / f.dEbin + f.synchPartY) :=
  kickAndDriftSelf_run hA hwrap hd hN hr c

/-- C62 fails upwards for bin 0: index `-1` is the last column, which is zero whenever the table is longer than the image, so
these particles feel no field. -/
theorem C62_violated_first_bin (hA : AgreesS m phi12 f P N L F) {p : ℕ} (hp : p < P - 1) (x : K) (h0 : 0 ≤ x) (h1 : x < 1)
    (hz : ∀ row ∈ f.vself, row[L]? = some 0) : lookup f p (-1) [x] = .ok [0] := by
  have h := lookup_up hA (n := 1) hp rfl (fun _ => x) (fun _ _ => h0) (fun _ _ => by
    have : (0 : K) ≤ L := Nat.cast_nonneg L
    linarith)
  have hf : ⌊x⌋ = 0 := by rw [Int.floor_eq_iff]; simp [h0, h1]
  obtain ⟨v, hv, -, hV⟩ := hA.table
  have : v p L = 0 := by
    have := hz (tab (L + 1) (v p)) (by rw [hv]; exact List.mem_map.2 ⟨p, List.mem_range.2 hp, rfl⟩)
    rw [some_tab _ (by omega)] at this
    exact Option.some.inj this
  rw [show tab 1 (fun _ => x) = [x] from rfl] at h
  rw [h, hf]
  show Except.ok [F.V p (0 - 1)] = _
  rw [show (0 : ℤ) - 1 = -1 from rfl, hV, this]

/-- C45, the exact error: one turn up and the same turn down changes the energy by the voltages of both columns, and the phase by
the corresponding drift. -/
theorem C45_round_trip (sin : K → K) (F : SelfProgram K) (t : ℕ) (x : K × K) :
    bwdS sin F t (fwdS sin F t x)
      = (x.1 + F.R.coef t * ((F.V (t / F.d) (⌊bin F (t + 1) (x.1 - F.R.coef t * x.2)⌋ - 1)
            + F.V (t / F.d) ⌊bin F (t + 1) (x.1 - F.R.coef t * x.2)⌋) * F.q),
         x.2 + (F.V (t / F.d) (⌊bin F (t + 1) (x.1 - F.R.coef t * x.2)⌋ - 1)
            + F.V (t / F.d) ⌊bin F (t + 1) (x.1 - F.R.coef t * x.2)⌋) * F.q) :=
  bwdS_fwdS t x

/-- C45: hence a turn is undone if and only if the two voltages cancel. -/
theorem C45_reversible_iff (sin : K → K) (F : SelfProgram K) (hq : F.q ≠ 0) (t : ℕ) (x : K × K) :
    bwdS sin F t (fwdS sin F t x) = x ↔
      F.V (t / F.d) (⌊bin F (t + 1) (x.1 - F.R.coef t * x.2)⌋ - 1)
        = - F.V (t / F.d) ⌊bin F (t + 1) (x.1 - F.R.coef t * x.2)⌋ := by
  rw [C45_round_trip]
  constructor
  · intro h
    have h2 := congrArg Prod.snd h
    simp only [add_eq_left, mul_eq_zero, hq, or_false] at h2
    exact eq_neg_of_add_eq_zero_left h2
  · intro h
    ext <;> simp [h]

/-- C45 (partial): with a table of zeros the tracking is that without self fields and undoes itself, over any number of turns in
either direction. -/
theorem C45_zero_field_partial (sin : K → K) (F : SelfProgram K) (hV : ∀ p j, F.V p j = 0) (s t : ℕ) (x : K × K) :
    transportS sin F s t x = transport sin F.R s t x ∧ transportS sin F t s (transportS sin F s t x) = x := by
  refine ⟨transportS_zero hV s t x, ?_⟩
  rw [transportS_zero hV, transportS_zero hV, Spec.transport_trans, Spec.transport_self]

end lookups

/-! ## Concrete cases -/

/-- two profiles one turn apart, six bins, constant frequency, no RF -/
def selfMach : SMach ℚ := ⟨0, 2, 1, 6, 1, 1, [1, 1], [1, 1], 0, -1⟩
def selfTrack : Track.Mach ℚ :=
  { rf1v := [0, 0], rf2v := [0, 0], phi0 := [0, 0], deltaE0 := [0, 0], driftCoef := [1], phi12 := [0, 0], hratio := 1 }
def selfSF : SF ℚ := ⟨0, 1, 1, 1, [1, 1], 0, [], 1, 0⟩
/-- slopes `0, 1, 2, …` in both profiles -/
def selfSlopes : Arr2 ℚ := arr 2 6 fun _ j => (j : ℚ)
def selfNone : SelfObj ℚ := ⟨none, none, none, none⟩
def noFilter : Arr2 ℚ → M (Arr2 ℚ) := .ok

theorem selfSetup : SelfSetup selfMach selfTrack 0 selfSF 2 1 1 { driftProg with h := 1 } (fun _ => 1) (fun _ => 1) := by
  refine ⟨rfl, le_rfl, rfl, one_pos, rfl, rfl, fun _ => one_pos, rfl, fun _ => one_ne_zero, one_pos, one_pos, by decide, rfl,
    rfl, rfl, by decide +kernel, ?_⟩
  constructor <;> first | rfl | (intro t ht; have : t = 0 ∨ t = 1 := by omega
                                 rcases this with rfl | rfl <;> first | rfl | omega)

/-- the table that `calc_self_fields` stores for it: the interval is one RF period, the table has one column more than bins -/
example : calcSelfFields libQ 1 1 noFilter selfMach selfSlopes (some 1) (.given (some selfSlopes)) selfNone
    = (⟨some selfSlopes, some 6, some 6, some [[0, 1, 2, 3, 4, 5, 0]]⟩, none) := by
  have := C63_table selfSetup libQ (by decide +kernel) 1 1 1 noFilter selfSlopes (.given (some selfSlopes)) selfNone
    (fun _ j => (j : ℚ)) (by simp [filtered, checkFiltered, selfSlopes, selfMach])
  obtain ⟨wr, l, h1, h2⟩ := this
  have h3 : findWrapLength libQ selfMach = .ok (6, 6) := by decide +kernel
  rw [h3] at h1
  obtain ⟨rfl, hl⟩ : (6 : ℚ) = wr ∧ (6 : Int) = l := by
    have := Except.ok.inj h1; exact ⟨congrArg Prod.fst this, congrArg Prod.snd this⟩
  obtain rfl : l = 6 := by omega
  rw [h2]
  have e : (tab (2 - 1) fun p => tab (6 + 1) fun j => if j < selfMach.nbins then 1 / 2 * (1 : ℚ)
      * (Spec.selfCoeff 1 libQ.pi 1 libQ.c selfMach.gCoupling selfMach.zwallOverN selfMach.dtbin 1 1 * j
        + Spec.selfCoeff 1 libQ.pi 1 libQ.c selfMach.gCoupling selfMach.zwallOverN selfMach.dtbin 1 1 * j) else 0) = [[0, 1, 2, 3, 4, 5, 0]] := by
    decide +kernel
  rw [e]; rfl

/-- the hypothesis on the frequencies holds there -/
example (l : ℕ) : ∀ t, t ≤ 1 → l * refOmega selfMach.bdot (fun _ => 1) 1 ≤ ((l : ℚ) + 1) * 1 :=
  C44_constant_frequency selfSetup (fun _ => rfl) l

def selfField : SF ℚ := { selfSF with phiwrap := 6, vself := [[0, 1, 2, 3, 4, 5, 0]] }

/-- C45 fails: a particle in bin 3 tracked one turn up and one turn down comes back with energy 5 instead of 0 and at phase 17/2
(bin 2.5) instead of 7/2. -/
theorem C45_violated :
    trackSelf (fun x : ℚ => x) selfTrack 0 selfField 1 2 0 0 [7/2] [0] = .ok ([[7/2], [7/2]], [[0], [2]]) ∧
    kickAndDriftSelf (fun x : ℚ => x) selfTrack 0 selfField 1 2 1 [2] [7/2] = .ok ([[5/2], [7/2]], [[5], [2]]) := by
  constructor <;> decide +kernel

/-- C62 fails upwards: a particle in bin 3, where the tabulated voltage is 3, gains 2, the voltage of bin 2; a particle in bin 0
gains the last column. -/
theorem C62_violated_upward :
    selfField.vself = [[0, 1, 2, 3, 4, 5, 0]] ∧
    trackSelf (fun x : ℚ => x) selfTrack 0 selfField 1 2 0 0 [7/2] [0] = .ok ([[7/2], [7/2]], [[0], [2]]) ∧
    kickAndDriftSelf (fun x : ℚ => x) selfTrack 0 selfField 1 2 1 [0] [7/2] = .ok ([[1/2], [7/2]], [[3], [0]]) := by
  refine ⟨rfl, ?_, ?_⟩ <;> decide +kernel

/-- three profiles two turns apart; the frequency doubles after turn 1 -/
def rampMach : SMach ℚ := ⟨1, 3, 2, 3, 1, 1, [1, 1, 2, 2, 2], [1, 1, 1, 1, 1], 0, -1⟩
def rampTrack : Track.Mach ℚ :=
  { rf1v := [0, 0, 0, 0, 0], rf2v := [0, 0, 0, 0, 0], phi0 := [0, 0, 0, 0, 0], deltaE0 := [0, 0, 0, 0, 0],
    driftCoef := [1, 1, 1, 1], phi12 := [0, 0, 0, 0, 0], hratio := 1 }
def rampSlopes : Arr2 ℚ := arr 3 3 fun _ j => (j : ℚ)

/-- C44 fails under acceleration: the interval is measured at the last turns, where a bin is largest.  Here it holds three bins of
those turns but six bins of turn 1; the table has four columns, and tracking a particle of phase 7/2 down from profile 1 raises
an IndexError. -/
theorem C44_violated_acceleration :
    calcSelfFields libQ 1 1 noFilter rampMach rampSlopes (some 1) (.given (some rampSlopes)) selfNone
      = (⟨some rampSlopes, some 6, some 3, some [[0, 3/4, 3/2, 0], [0, 1/2, 1, 0]]⟩, none) ∧
    trackSelf (fun x : ℚ => x) rampTrack 0 ⟨0, 1, 1, 1, [1, 1, 2, 2, 2], 6, [[0, 3/4, 3/2, 0], [0, 1/2, 1, 0]], 1, 0⟩ 2 3 1 0
      [7/2] [0] = .error (.exc .indexError) := by
  constructor
  · have h3 : findWrapLength libQ rampMach = .ok (6, 3) := by decide +kernel
    have h4 : calculateSelf libQ 1 1 rampMach 1 rampSlopes 3 = .ok [[0, 3/4, 3/2, 0], [0, 1/2, 1, 0]] := by decide +kernel
    simp only [calcSelfFields, filtered, checkFiltered, and_self, if_true, h3, h4]
  · decide +kernel

/-- With self fields the offset `deltaturn` is accepted and ignored. -/
theorem C17_violated_self_fields (sin : K → K) (m : Track.Mach K) (phi12 : K) (f : SF K) (P d recprof δ r : Int)
    (h : trackCheck P d recprof δ = .ok r) (dphi denergy : List K) :
    trackSelf sin m phi12 f d P recprof δ dphi denergy = kickAndDriftSelf sin m phi12 f d P r denergy dphi := by
  unfold trackSelf
  rw [h]

example : trackCheck 3 2 1 1 = .ok 1 ∧ trackCheck 3 2 1 0 = .ok 1 := by decide

end Verif.Props
