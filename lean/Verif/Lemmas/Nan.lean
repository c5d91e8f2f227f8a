import Verif.Lemmas.Tomography
import Verif.Lemmas.ReconBounds

/-!
# How a NaN row travels through constructor and reconstruction (helper lemmas)
-/

set_option linter.unusedSectionVars false

namespace Verif.Recon
open Finset Verif.Spec Verif.Tomo

section generic
variable {α : Type} [Add α] [Sub α] [Mul α] [Zero α] [One α] [NatCast α]
  [LT α] [LE α] [DecidableLT α] [DecidableLE α] [DecidableEq α] [FDiv α]

theorem eq_flat_of_length [Inhabited α] {l : List α} {n m : ℕ} (h : l.length = n * m) :
    ∃ f : ℕ → ℕ → α, l = flat n m f := by
  refine ⟨fun i j => l.getD (i * m + j) default, ?_⟩
  conv_lhs => rw [eq_tab_of_length l, h]
  unfold flat
  apply tab_congr
  intro k _
  dsimp only
  rw [Nat.mul_comm (k / m), Nat.div_add_mod]

/-- loop adding `v p` for `p = 0 … n-1` to `a`, left to right -/
def addUp (v : ℕ → α) (a : α) : ℕ → α
  | 0 => a
  | n + 1 => addUp v a n + v n

theorem backProject_gen {npart nprof nbins : ℕ} {x : ℕ → ℕ → ℕ} (hx : InRange npart nprof nbins x)
    (w : ℕ → α) (f : ℕ → ℕ → α) :
    backProject (tab npart w) (fpbuf npart nprof nbins x) (flat nprof nbins f) npart nprof
      = .ok (tab npart (fun i => addUp (fun p => f p (x i p)) (w i) nprof)) := by
  unfold backProject
  apply pointLoop_eq
  intro i hi g hg
  rw [forN_eq (g := fun j => tab npart (fun k => if k = i then addUp (fun p => f p (x i p)) (w i) j else g k))]
  · apply tab_congr; intro k _
    by_cases h : k = i
    · subst h; simp [addUp, hg]
    · simp [h]
  · intro j hj
    rw [rd_fp hi hj, bind_ok, rd_flat f hj (hx i hi j hj) rfl, bind_ok, rd_tab _ hi, bind_ok, upd_tab _ _ hi]
    congr 1; apply tab_congr; intro k _
    by_cases h : k = i
    · subst h; simp [addUp]
    · simp [h]

/-- value of a bin after adding the weights of the particles `0 … n-1` that hit it -/
def hits (x : ℕ → ℕ → ℕ) (w : ℕ → α) (p b : ℕ) (a : α) : ℕ → α
  | 0 => a
  | n + 1 => if x n p = b then hits x w p b a n + w n else hits x w p b a n

theorem project_gen {npart nprof nbins : ℕ} {x : ℕ → ℕ → ℕ} (hx : InRange npart nprof nbins x)
    (w : ℕ → α) (r : ℕ → ℕ → α) :
    project (flat nprof nbins r) (fpbuf npart nprof nbins x) (tab npart w) npart nprof
      = .ok (flat nprof nbins (fun p b => hits x w p b (r p b) npart)) := by
  unfold project
  rw [forN_eq (g := fun i => flat nprof nbins (fun p b => hits x w p b (r p b) i))]
  · rfl
  · intro i hi
    rw [forN_eq (g := fun j => flat nprof nbins
      (fun p b => if p < j then hits x w p b (r p b) (i + 1) else hits x w p b (r p b) i))]
    · congr 1; apply flat_congr; intro p b hp _; simp [hp]
    · apply flat_congr; intro p b _ _; simp
    · intro j hj
      rw [rd_fp hi hj, bind_ok, rd_flat _ hj (hx i hi j hj) rfl, bind_ok, rd_tab _ hi, bind_ok,
        upd_flat _ _ hj (hx i hi j hj) rfl]
      congr 1; apply flat_congr; intro p b _ _
      unfold upd2
      by_cases h : p = j ∧ b = x i j
      · obtain ⟨rfl, rfl⟩ := h; simp [hits]
      · rw [if_neg h]
        dsimp only
        by_cases h1 : p < j
        · rw [if_pos h1, if_pos (by omega)]
        · rw [if_neg h1]
          by_cases h2 : p < j + 1
          · rw [if_pos h2]
            have hpj : p = j := by omega
            subst hpj
            have : ¬ x i p = b := fun e => h ⟨rfl, e.symm⟩
            simp [hits, this]
          · rw [if_neg h2]

theorem sum_gen (n : ℕ) (w : ℕ → α) : sum (tab n w) n = .ok (addUp w 0 n) := by
  unfold sum
  rw [forN_eq (g := fun i => addUp w 0 i)]
  · rfl
  · intro i hi
    rw [rd_tab w hi, bind_ok]; rfl

theorem clip_gen (n : ℕ) (w : ℕ → α) (c : α) :
    clip (tab n w) n c = .ok (tab n (fun i => if w i < c then c else w i)) := by
  unfold clip
  apply pointLoop_eq
  intro i hi g hg
  rw [rd_tab g hi, bind_ok, hg]
  by_cases h : w i < c
  · rw [if_pos h, if_pos h, upd_tab _ _ hi]
  · rw [if_neg h, if_neg h]
    simp only [pure_eq_ok]; congr 1; apply tab_congr; intro k _
    by_cases hk : k = i
    · subst hk; simp [hg]
    · simp [hk]

theorem findDifference_gen (nprof nbins : ℕ) (d r f : ℕ → ℕ → α) :
    findDifferenceProfile (flat nprof nbins d) (flat nprof nbins r) (flat nprof nbins f)
      (nprof * nbins) = .ok (flat nprof nbins (fun p b => f p b - r p b)) := by
  unfold findDifferenceProfile flat
  apply pointLoop_eq
  intro i hi g _
  rw [rd_tab _ hi, bind_ok, rd_tab _ hi, bind_ok, upd_tab _ _ hi]

theorem compensate_gen (nprof nbins : ℕ) (d r : ℕ → ℕ → α) :
    compensate (flat nprof nbins d) (flat nprof nbins r) nprof nbins
      = .ok (flat nprof nbins (fun p b => d p b * r p b)) := by
  unfold compensate
  apply gridLoop_eq
  intro i j hi hj g hg
  rw [rd_flat g hi hj rfl, bind_ok, rd_flat r hi hj rfl, bind_ok, upd_flat g _ hi hj rfl, hg]

end generic

namespace NaN
open Fl

theorem addUp_nan_start (v : ℕ → Fl) (n : ℕ) : addUp v nan n = nan := by
  induction n with
  | zero => rfl
  | succ n ih => simp [addUp, ih]

theorem addUp_nan_mem (v : ℕ → Fl) (a : Fl) {n k : ℕ} (hk : k < n) (h : v k = nan) : addUp v a n = nan := by
  induction n with
  | zero => omega
  | succ n ih =>
    rw [addUp]
    rcases Nat.lt_or_ge k n with h1 | h1
    · rw [ih h1, nan_add]
    · have : k = n := by omega
      subst this; rw [h, add_nan]

theorem hits_nan (x : ℕ → ℕ → ℕ) (p : ℕ) (a : Fl) {n i : ℕ} (hi : i < n) :
    hits x (fun _ => nan) p (x i p) a n = nan := by
  induction n with
  | zero => omega
  | succ n ih =>
    rw [hits]
    rcases Nat.lt_or_ge i n with h1 | h1
    · rw [ih h1]; simp
    · have : i = n := by omega
      subst this; simp

/-- `normalize` never fails on a waterfall that contains a NaN. -/
theorem normalize_nan {nprof nbins : ℕ} (r : ℕ → ℕ → Fl) {p0 b0 : ℕ} (hp0 : p0 < nprof) (hb0 : b0 < nbins)
    (hn : r p0 b0 = nan) :
    ∃ r', normalize (flat nprof nbins r) nprof nbins = .ok (flat nprof nbins r') := by
  let s : ℕ → Fl := fun p => addUp (fun b => r p b) 0 nbins
  unfold normalize
  rw [forN_eq (g := fun i => (flat nprof nbins (fun a b => if a < i then div (r a b) (s a) else r a b),
    addUp s 0 i))]
  · have hs : s p0 = nan := addUp_nan_mem _ _ hb0 hn
    have : addUp s 0 nprof = nan := addUp_nan_mem _ _ hp0 hs
    simp only [bind_ok]
    rw [this, if_neg (by simp)]
    exact ⟨_, rfl⟩
  · simp only [Nat.not_lt_zero, if_false]; rfl
  · intro i hi
    have hs : forN nbins (fun j acc => do
        let v ← rd (flat nprof nbins (fun a b => if a < i then div (r a b) (s a) else r a b))
          ((i * nbins + j : Nat) : Int)
        pure (acc + v)) (0 : Fl) = .ok (s i) := by
      rw [forN_eq (g := fun j => addUp (fun b => r i b) 0 j)]
      · rfl
      · intro j hj
        rw [rd_flat _ hi hj rfl, bind_ok]; simp [addUp]
    simp only [hs, bind_ok]
    rw [forN_eq (g := fun j => flat nprof nbins (fun a b =>
      if a < i ∨ (a = i ∧ b < j) then div (r a b) (s a) else r a b))]
    · rw [bind_ok]
      have : flat nprof nbins (fun a b => if a < i ∨ (a = i ∧ b < nbins) then div (r a b) (s a) else r a b)
          = flat nprof nbins (fun a b => if a < i + 1 then div (r a b) (s a) else r a b) := by
        apply flat_congr; intro a b ha hb
        have : (a < i ∨ (a = i ∧ b < nbins)) ↔ a < i + 1 := by omega
        simp [this]
      rw [this]; rfl
    · simp
    · intro j hj
      rw [rd_flat _ hi hj rfl, bind_ok, fdiv_def, bind_ok, upd_flat _ _ hi hj rfl]
      congr 1; apply flat_congr; intro a b _ _
      unfold upd2
      by_cases h1 : a = i ∧ b = j
      · obtain ⟨rfl, rfl⟩ := h1; simp
      · have : (a < i ∨ (a = i ∧ b < j + 1)) ↔ (a < i ∨ (a = i ∧ b < j)) := by omega
        rw [if_neg h1]; exact if_congr this.symm rfl rfl

theorem discrepancy_total (sqrt : Fl → Fl) (nprof nbins : ℕ) (d : ℕ → ℕ → Fl) :
    ∃ v, discrepancy sqrt (flat nprof nbins d) nprof nbins = .ok v := by
  unfold discrepancy
  have h : ∃ s, forN (nprof * nbins) (fun i s => do
      let d ← rd (flat nprof nbins d) (i : Int)
      pure (s + d * d)) (0 : Fl) = .ok s ∧ True := by
    apply forN_inv (fun _ _ => True) trivial
    intro i s hi _
    unfold flat
    rw [rd_tab _ hi]
    exact ⟨_, rfl, trivial⟩
  obtain ⟨s, h, _⟩ := h
  rw [h, bind_ok, fdiv_def, bind_ok]
  exact ⟨_, rfl⟩

/-- loops over a buffer that read and overwrite one cell cannot fail -/
theorem cellLoop_total {n N : ℕ} (body : ℕ → List Fl → M (List Fl)) (l : List Fl) (hl : l.length = N)
    (h : ∀ i l, i < n → l.length = N → ∃ l', body i l = .ok l' ∧ l'.length = N) :
    ∃ l', forN n body l = .ok l' ∧ l'.length = N :=
  forN_inv (fun _ l => l.length = N) hl (fun i l hi hl => h i l hi hl)

theorem reciprocal_total {npart nprof nbins : ℕ} {x : ℕ → ℕ → ℕ} (hx : InRange npart nprof nbins x) :
    ∃ r : ℕ → ℕ → Fl, reciprocalParticles (tab (nprof * nbins) fun _ => (0 : Fl)) (xbuf npart nprof x) nbins nprof npart
      = .ok (flat nprof nbins r) := by
  obtain ⟨r1, h1, hl1⟩ := (countParticles_total (K := Fl) (npart := npart) (nprof := nprof) (nbins := nbins)
    (fun i p => (x i p : ℤ))).1 (by
      intro i hi p hp
      have := idx_lt hp (hx i hi p hp)
      constructor
      · positivity
      · exact_mod_cast this)
  unfold reciprocalParticles xbuf
  rw [h1, bind_ok]
  have h2 : ∃ m, max1d r1 (nprof * nbins) = .ok m ∧ True := by
    unfold max1d
    apply forN_inv (fun _ _ => True) trivial
    intro i s hi _
    obtain ⟨v, hv⟩ := rd_eq_ok r1 (i := (i : ℤ)) (by omega) (by rw [hl1]; exact_mod_cast hi)
    rw [hv, bind_ok]
    split <;> exact ⟨_, rfl, trivial⟩
  obtain ⟨m, hm, _⟩ := h2
  rw [hm, bind_ok]
  have h3 : ∃ r2, zerosToOnes r1 (nprof * nbins) = .ok r2 ∧ r2.length = nprof * nbins := by
    unfold zerosToOnes
    apply cellLoop_total _ _ hl1
    intro i l hi hl
    obtain ⟨v, hv⟩ := rd_eq_ok l (i := (i : ℤ)) (by omega) (by rw [hl]; exact_mod_cast hi)
    obtain ⟨l', h1, h2⟩ := upd_eq_ok l (i := (i : ℤ)) 1 (by omega) (by rw [hl]; exact_mod_cast hi)
    rw [hv, bind_ok]
    split
    · exact ⟨l', h1, h2.trans hl⟩
    · exact ⟨l, rfl, hl⟩
  obtain ⟨r2, h3, hl2⟩ := h3
  rw [h3, bind_ok]
  have h4 : ∃ r3, takeReciprocal m r2 nprof nbins = .ok r3 ∧ r3.length = nprof * nbins := by
    unfold takeReciprocal
    apply cellLoop_total _ _ hl2
    intro i l hi hl
    apply cellLoop_total _ _ hl
    intro j l hj hl
    have hidx : ((i * nbins + j : ℕ) : ℤ) < l.length := by rw [hl]; exact_mod_cast idx_lt hi hj
    obtain ⟨v, hv⟩ := rd_eq_ok l (i := ((i * nbins + j : ℕ) : ℤ)) (by omega) hidx
    obtain ⟨l', h1, h2⟩ := upd_eq_ok l (i := ((i * nbins + j : ℕ) : ℤ)) (div m v) (by omega) hidx
    rw [hv, bind_ok, fdiv_def, bind_ok]
    exact ⟨l', h1, h2.trans hl⟩
  obtain ⟨r3, h4, hl3⟩ := h4
  obtain ⟨f, rfl⟩ := eq_flat_of_length hl3
  exact ⟨f, h4⟩

theorem clip_nan (n : ℕ) : clip (tab n fun _ => nan) n 0 = .ok (tab n fun _ => nan) := by
  rw [clip_gen]; simp

theorem backProject_nan {npart nprof nbins : ℕ} {x : ℕ → ℕ → ℕ} (hx : InRange npart nprof nbins x)
    (f : ℕ → ℕ → Fl) :
    backProject (tab npart fun _ => nan) (fpbuf npart nprof nbins x) (flat nprof nbins f) npart nprof
      = .ok (tab npart fun _ => nan) := by
  rw [backProject_gen hx]
  congr 1; apply tab_congr; intro i _; exact addUp_nan_start _ _

theorem sum_nan {n : ℕ} (h : 0 < n) : sum (tab n fun _ => nan) n = .ok nan := by
  rw [sum_gen, addUp_nan_mem _ _ h rfl]

/-- with NaN weights an iteration succeeds and the weights stay NaN -/
theorem iterBody_nan (sqrt : Fl → Fl) {npart nprof nbins niter k : ℕ} {x : ℕ → ℕ → ℕ} (hn : 0 < npart)
    (hp : 0 < nprof) (hx : InRange npart nprof nbins x) (wf rp r : ℕ → ℕ → Fl) (d : List Fl)
    (hd : d.length = niter + 1) (hk : k < niter) :
    ∃ (r' : ℕ → ℕ → Fl) (d' : List Fl), d'.length = niter + 1 ∧
      iterBody sqrt (fpbuf npart nprof nbins x) (flat nprof nbins wf) (flat nprof nbins rp) nbins npart nprof k
        ⟨tab npart fun _ => nan, flat nprof nbins r, d⟩
        = .ok ⟨tab npart fun _ => nan, flat nprof nbins r', d'⟩ := by
  unfold iterBody
  have hz : (tab (nprof * nbins) fun _ => (0 : Fl)) = flat nprof nbins fun _ _ => (0 : Fl) := rfl
  dsimp only
  rw [project_gen hx, bind_ok]
  obtain ⟨r1, h1⟩ := normalize_nan (fun p b => hits x (fun _ => nan) p b (r p b) npart) hp
    (hx 0 hn 0 hp) (hits_nan x 0 _ hn)
  rw [h1, bind_ok, hz, findDifference_gen, bind_ok]
  obtain ⟨v, h2⟩ := discrepancy_total sqrt nprof nbins (fun p b => wf p b - r1 p b)
  rw [h2, bind_ok]
  obtain ⟨d', h3, h4⟩ := upd_eq_ok d (i := (k : ℤ)) v (by omega) (by rw [hd]; omega)
  rw [h3, bind_ok, compensate_gen, bind_ok, backProject_nan hx, bind_ok, clip_nan, bind_ok, sum_nan hn, bind_ok,
    if_neg (by simp)]
  exact ⟨r1, d', h4.trans hd, rfl⟩

theorem iterLoop_nan (sqrt : Fl → Fl) {npart nprof nbins niter : ℕ} {x : ℕ → ℕ → ℕ} (hn : 0 < npart)
    (hp : 0 < nprof) (hx : InRange npart nprof nbins x) (wf rp r : ℕ → ℕ → Fl) (d : List Fl)
    (hd : d.length = niter + 1) (k : ℕ) (hk : k ≤ niter) :
    ∃ (r' : ℕ → ℕ → Fl) (d' : List Fl), d'.length = niter + 1 ∧
      iterLoop (iterBody sqrt (fpbuf npart nprof nbins x) (flat nprof nbins wf) (flat nprof nbins rp) nbins npart nprof)
        niter k ⟨tab npart fun _ => nan, flat nprof nbins r, d⟩
        = (logN niter k, .ok ⟨tab npart fun _ => nan, flat nprof nbins r', d'⟩) := by
  induction k with
  | zero => exact ⟨r, d, hd, rfl⟩
  | succ k ih =>
    obtain ⟨r1, d1, h1, h2⟩ := ih (by omega)
    obtain ⟨r2, d2, h3, h4⟩ := iterBody_nan sqrt hn hp hx wf rp r1 d1 h1 (k := k) (by omega)
    exact ⟨r2, d2, h3, by simp only [iterLoop, h2, h4, logN_succ]⟩

theorem finalStep_nan (sqrt : Fl → Fl) {npart nprof nbins niter : ℕ} {x : ℕ → ℕ → ℕ} (hn : 0 < npart)
    (hp : 0 < nprof) (hx : InRange npart nprof nbins x) (wf r : ℕ → ℕ → Fl) (d : List Fl)
    (hd : d.length = niter + 1) :
    ∃ (r' : ℕ → ℕ → Fl) (d' : List Fl),
      finalStep sqrt (fpbuf npart nprof nbins x) (flat nprof nbins wf) nbins npart nprof niter
        ⟨tab npart fun _ => nan, flat nprof nbins r, d⟩
        = .ok ⟨tab npart fun _ => nan, flat nprof nbins r', d'⟩ := by
  unfold finalStep
  have hz : (tab (nprof * nbins) fun _ => (0 : Fl)) = flat nprof nbins fun _ _ => (0 : Fl) := rfl
  dsimp only
  rw [project_gen hx, bind_ok]
  obtain ⟨r1, h1⟩ := normalize_nan (fun p b => hits x (fun _ => nan) p b (r p b) npart) hp
    (hx 0 hn 0 hp) (hits_nan x 0 _ hn)
  rw [h1, bind_ok, hz, findDifference_gen, bind_ok]
  obtain ⟨v, h2⟩ := discrepancy_total sqrt nprof nbins (fun p b => wf p b - r1 p b)
  rw [h2, bind_ok]
  obtain ⟨d', h3, h4⟩ := upd_eq_ok d (i := (niter : ℤ)) v (by omega) (by rw [hd]; omega)
  rw [h3, bind_ok]
  exact ⟨r1, d', rfl⟩

/-- one NaN profile: the reconstruction reports success and every weight is NaN -/
theorem reconstruct_nan (sqrt : Fl → Fl) {npart nprof nbins : ℕ} {x : ℕ → ℕ → ℕ} (hn : 0 < npart)
    (hx : InRange npart nprof nbins x) (wf : ℕ → ℕ → Fl) (niter : ℕ) {p0 : ℕ} (hp0 : p0 < nprof)
    (hwf : ∀ b, b < nbins → wf p0 b = nan) :
    ∃ st, reconstruct sqrt (xbuf npart nprof x) (flat nprof nbins wf) niter nbins npart nprof
        = (logN niter niter ++ [(niter, niter)], .ok st) ∧ st.weights = tab npart fun _ => nan := by
  have hp : 0 < nprof := by omega
  obtain ⟨rp, h1⟩ := reciprocal_total hx
  unfold reconstruct reconstructOn prepare
  rw [h1, bind_ok, createFlatPoints_ok, bind_ok]
  simp only [pure_eq_ok]
  have h2 : firstStep (tab npart fun _ => (0 : Fl)) (fpbuf npart nprof nbins x) (flat nprof nbins wf) npart nprof
      = .ok (tab npart fun _ => nan) := by
    unfold firstStep
    rw [backProject_gen hx, bind_ok]
    have : (tab npart fun i => addUp (fun p => wf p (x i p)) (0 : Fl) nprof) = tab npart fun _ => nan := by
      apply tab_congr; intro i hi
      exact addUp_nan_mem _ _ hp0 (hwf _ (hx i hi p0 hp0))
    rw [this, clip_nan, bind_ok, sum_nan hn, bind_ok, if_neg (by simp)]; rfl
  rw [h2]
  dsimp only
  have hz : (tab (nprof * nbins) fun _ => (0 : Fl)) = flat nprof nbins fun _ _ => (0 : Fl) := rfl
  rw [hz]
  obtain ⟨r', d', h3, h4⟩ := iterLoop_nan sqrt hn hp hx wf rp (fun _ _ => 0) (tab (niter + 1) fun _ => 0) (by simp)
    niter le_rfl
  rw [h4]
  dsimp only
  obtain ⟨r'', d'', h5⟩ := finalStep_nan sqrt hn hp hx wf r' d' h3
  rw [h5]
  exact ⟨_, rfl, rfl⟩

/-- the constructor's normalisation over finite data -/
theorem normalizeProfiles_fin {nprof nbins : ℕ} (r : ℕ → ℕ → ℚ) (h : ∃ i j, i < nprof ∧ j < nbins ∧ r i j ≠ 0) :
    normalizeProfiles (flat nprof nbins fun p b => fin (r p b)) nprof nbins
      = .ok (flat nprof nbins fun p b => div (fin (r p b)) (fin (rowSum nbins r p))) := by
  unfold normalizeProfiles
  have hany : ((flat nprof nbins fun p b => fin (r p b)).any (fun v => v ≠ 0)) = true := by
    rw [any_flat]
    obtain ⟨i, j, hi, hj, hn⟩ := h
    refine ⟨i, j, hi, hj, fun e => hn ?_⟩
    rw [zero_def] at e
    exact Fl.fin.inj e
  have hsums : rowSums (flat nprof nbins fun p b => fin (r p b)) nprof nbins
      = .ok (tab nprof fun p => fin (rowSum nbins r p)) := by
    unfold rowSums
    rw [forN_eq (g := fun i => tab i (fun p => fin (rowSum nbins r p)))]
    · rfl
    · intro i hi
      have : forN nbins (fun j s => do
        let v ← rd (flat nprof nbins fun p b => fin (r p b)) ((i * nbins + j : Nat) : Int)
        pure (s + v)) (0 : Fl) = .ok (fin (rowSum nbins r i)) := by
        rw [forN_eq (g := fun j => fin (∑ b ∈ range j, r i b))]
        · rfl
        · simp [zero_def]
        · intro j hj
          rw [rd_flat _ hi hj rfl, bind_ok, sum_range_succ]; rfl
      rw [this, bind_ok, tab_succ]; rfl
  rw [if_pos hany, hsums, bind_ok]
  apply gridLoop_eq
  intro i j hi hj g hg
  rw [rd_flat g hi hj rfl, bind_ok, rd_tab _ hi, bind_ok, fdiv_def, bind_ok, upd_flat g _ hi hj rfl, hg]

theorem npClip0_fin (n m : ℕ) (w : ℕ → ℕ → ℚ) :
    npClip0 (flat n m fun p b => fin (w p b)) = flat n m (fun p b => fin (max (w p b) 0)) := by
  unfold npClip0 flat tab
  rw [List.map_map]
  apply List.map_congr_left
  intro i _
  simp only [Function.comp]
  rw [zero_def]
  split
  · rename_i h; rw [fin_lt] at h; rw [max_eq_right h.le]
  · rename_i h; rw [fin_lt] at h; rw [max_eq_left (not_lt.mp h)]

end NaN
end Verif.Recon
