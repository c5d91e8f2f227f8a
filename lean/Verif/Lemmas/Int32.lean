import Verif.Model.Int32
import Verif.Lemmas.Assertions

/-! # When the 32-bit routines compute what the models with unbounded integers compute -/

set_option linter.unusedSectionVars false

namespace Verif

/-- the largest `int` -/
def maxInt : ℕ := 2147483647

theorem int32_ok {z : ℤ} (h0 : -2147483648 ≤ z) (h1 : z ≤ 2147483647) : int32 z = .ok z := if_pos ⟨h0, h1⟩

theorem int32_over {z : ℤ} (h : 2147483647 < z) : int32 z = .error .overflow := if_neg (by omega)

theorem idx32_lt {n m i j : ℕ} (hi : i < n) (hj : j < m) : i * m + j < n * m := by
  have : (i + 1) * m ≤ n * m := Nat.mul_le_mul_right m hi
  rw [Nat.add_mul, Nat.one_mul] at this
  omega

theorem idx32_ok {i m j : ℕ} (h : i * m + j ≤ maxInt) : idx32 i m j = .ok ((i * m + j : ℕ) : ℤ) := by
  have hm : ((i : ℤ) * m) = ((i * m : ℕ) : ℤ) := by push_cast; rfl
  unfold idx32
  unfold maxInt at h
  rw [hm, int32_ok (by omega) (by omega), bind_ok, int32_ok (by omega) (by omega)]
  push_cast
  rfl

theorem mul32_ok {i m : ℕ} (h : i * m ≤ maxInt) : int32 ((i : ℤ) * m) = .ok ((i * m : ℕ) : ℤ) := by
  have hm : ((i : ℤ) * m) = ((i * m : ℕ) : ℤ) := by push_cast; rfl
  unfold maxInt at h
  rw [hm, int32_ok (by omega) (by omega)]

theorem succ32_ok {i : ℕ} (h : i < maxInt) : int32 ((i : ℤ) + 1) = .ok ((i : ℤ) + 1) := by
  unfold maxInt at h
  exact int32_ok (by omega) (by omega)

theorem mul32_over {i m : ℕ} (h : maxInt < i * m) : int32 ((i : ℤ) * m) = .error .overflow := by
  have hm : ((i : ℤ) * m) = ((i * m : ℕ) : ℤ) := by push_cast; rfl
  unfold maxInt at h
  rw [hm, int32_over (by omega)]

theorem rd_value {β : Type _} {l : List β} {i : ℤ} {v : β} (h : rd l i = .ok v) : v ∈ l := by
  unfold rd at h
  split at h
  · split at h
    · rename_i w hw
      cases h
      exact List.mem_of_getElem? hw
    · cases h
  · cases h

theorem forN_congr_inv {σ : Type _} {n : ℕ} {f g : ℕ → σ → M σ} {s : σ} (P : ℕ → σ → Prop) (h0 : P 0 s)
    (hs : ∀ i a, i < n → P i a → f i a = g i a ∧ ∀ b, g i a = .ok b → P (i + 1) b) : forN n f s = forN n g s := by
  suffices h : forN n f s = forN n g s ∧ ∀ b, forN n g s = .ok b → P n b from h.1
  induction n with
  | zero => exact ⟨rfl, fun b hb => by cases hb; exact h0⟩
  | succ n ih =>
    obtain ⟨h1, h2⟩ := ih fun i a hi => hs i a (by omega)
    rw [forN_succ, forN_succ, h1]
    cases hg : forN n g s with
    | error e => exact ⟨rfl, fun b hb => by cases hb⟩
    | ok a => exact hs n a (by omega) (h2 a hg)

theorem whileN_congr_inv {σ : Type _} {n : ℕ} {cond : σ → Bool} {f g : σ → M σ} {s : σ} (P : σ → Prop) (h0 : P s)
    (hs : ∀ a, P a → cond a = true → f a = g a ∧ ∀ b, g a = .ok b → P b) :
    whileN n cond f s = whileN n cond g s ∧ ∀ b, whileN n cond g s = .ok b → P b := by
  induction n generalizing s with
  | zero =>
    refine ⟨rfl, fun b hb => ?_⟩
    unfold whileN at hb
    split at hb
    · cases hb
    · cases hb
      exact h0
  | succ n ih =>
    by_cases hc : cond s = true
    · obtain ⟨h1, h2⟩ := hs s h0 hc
      unfold whileN
      rw [if_pos hc, if_pos hc, h1]
      cases hg : g s with
      | error e => exact ⟨rfl, fun b hb => by cases hb⟩
      | ok a => exact ih (h2 a hg)
    · unfold whileN
      rw [if_neg hc, if_neg hc]
      exact ⟨rfl, fun b hb => by cases hb; exact h0⟩

namespace Recon

variable {α : Type _} [Add α] [Sub α] [Mul α] [Zero α] [One α] [NatCast α]
  [LT α] [LE α] [DecidableLT α] [DecidableLE α] [DecidableEq α] [FDiv α]

variable {npart nprof nbins : ℕ}

theorem backProject32_eq (hp : npart * nprof ≤ maxInt) (w : List α) (fp : List ℤ) (p : List α) :
    backProject32 w fp p npart nprof = backProject w fp p npart nprof := by
  refine forN_congr _ fun i s hi => forN_congr _ fun j s hj => ?_
  rw [idx32_ok ((idx32_lt hi hj).le.trans hp), bind_ok]

theorem project32_eq (hp : npart * nprof ≤ maxInt) (r : List α) (fp : List ℤ) (w : List α) :
    project32 r fp w npart nprof = project r fp w npart nprof := by
  refine forN_congr _ fun i s hi => forN_congr _ fun j s hj => ?_
  rw [idx32_ok ((idx32_lt hi hj).le.trans hp), bind_ok]

theorem normalize32_eq (hb : nprof * nbins ≤ maxInt) (r : List α) : normalize32 r nprof nbins = normalize r nprof nbins := by
  unfold normalize32 normalize
  rw [forN_congr (g := fun i (st : List α × α) => do
    let sumProfile ← forN nbins (fun j s => do
      let v ← rd st.1 ((i * nbins + j : Nat) : Int)
      pure (s + v)) (0 : α)
    let rec ← forN nbins (fun j rec => do
      let v ← rd rec ((i * nbins + j : Nat) : Int)
      let q ← FDiv.fdiv v sumProfile
      upd rec ((i * nbins + j : Nat) : Int) q) st.1
    pure (rec, st.2 + sumProfile))]
  intro i st hi
  rw [forN_congr (g := fun j s => do
      let v ← rd st.1 ((i * nbins + j : Nat) : Int)
      pure (s + v))]
  · congr 1
    funext t
    rw [forN_congr (g := fun j rec => do
      let v ← rd rec ((i * nbins + j : Nat) : Int)
      let q ← FDiv.fdiv v t
      upd rec ((i * nbins + j : Nat) : Int) q)]
    intro j s hj
    rw [idx32_ok ((idx32_lt hi hj).le.trans hb), bind_ok]
  · intro j s hj
    rw [idx32_ok ((idx32_lt hi hj).le.trans hb), bind_ok]

theorem discrepancy32_eq (hb : nprof * nbins ≤ maxInt) (sqrt : α → α) (d : List α) :
    discrepancy32 sqrt d nprof nbins = discrepancy sqrt d nprof nbins := by
  unfold discrepancy32
  rw [mul32_ok hb, bind_ok]

theorem compensate32_eq (hb : nprof * nbins ≤ maxInt) (d r : List α) :
    compensate32 d r nprof nbins = compensate d r nprof nbins := by
  refine forN_congr _ fun i s hi => forN_congr _ fun j s hj => ?_
  rw [idx32_ok ((idx32_lt hi hj).le.trans hb), bind_ok]

theorem takeReciprocal32_eq (hb : nprof * nbins ≤ maxInt) (m : α) (r : List α) :
    takeReciprocal32 m r nprof nbins = takeReciprocal m r nprof nbins := by
  refine forN_congr _ fun i s hi => forN_congr _ fun j s hj => ?_
  rw [idx32_ok ((idx32_lt hi hj).le.trans hb), bind_ok]

/-- `j * nbins + bin` for a bin of the image -/
theorem bin_fits (hb : nprof * nbins ≤ maxInt) {j : ℕ} (hj : j < nprof) {v : ℤ} (h0 : 0 ≤ v) (h1 : v < nbins) :
    j * nbins ≤ maxInt ∧ 0 ≤ ((j * nbins : ℕ) : ℤ) + v ∧ ((j * nbins : ℕ) : ℤ) + v ≤ 2147483647 := by
  have h2 : (j + 1) * nbins ≤ nprof * nbins := Nat.mul_le_mul_right nbins hj
  rw [Nat.add_mul, Nat.one_mul] at h2
  unfold maxInt at *
  omega

theorem countParticlesInBin32_eq (hp : npart * nprof ≤ maxInt) (hb : nprof * nbins ≤ maxInt) {xp : List ℤ}
    (hx : ∀ v ∈ xp, 0 ≤ v ∧ v < nbins) (r : List α) :
    countParticlesInBin32 r xp nprof npart nbins = countParticlesInBin r xp nprof npart nbins := by
  refine forN_congr _ fun i s hi => forN_congr _ fun j s hj => ?_
  rw [idx32_ok ((idx32_lt hi hj).le.trans hp), bind_ok]
  cases hv : rd xp ((i * nprof + j : ℕ) : ℤ) with
  | error e => rfl
  | ok v =>
    obtain ⟨h1, h2⟩ := hx v (rd_value hv)
    obtain ⟨h3, h4, h5⟩ := bin_fits hb hj h1 h2
    rw [bind_ok, bind_ok, mul32_ok h3, bind_ok, int32_ok (by omega) (by omega), bind_ok]

theorem reciprocalParticles32_eq (hp : npart * nprof ≤ maxInt) (hb : nprof * nbins ≤ maxInt) {xp : List ℤ}
    (hx : ∀ v ∈ xp, 0 ≤ v ∧ v < nbins) (r : List α) :
    reciprocalParticles32 r xp nbins nprof npart = reciprocalParticles r xp nbins nprof npart := by
  unfold reciprocalParticles32 reciprocalParticles
  rw [mul32_ok hb, bind_ok, countParticlesInBin32_eq hp hb hx]
  congr 1
  funext r1
  congr 1
  funext m
  congr 1
  funext r2
  exact takeReciprocal32_eq hb m r2

theorem upd_other {l l' : List ℤ} {k : ℕ} {v : ℤ} (h : upd l (k : ℤ) v = .ok l') {c : ℕ} (hc : c ≠ k) : l'[c]? = l[c]? := by
  unfold upd at h
  split at h
  · cases h
    rw [List.getElem?_set]
    simp only [Int.toNat_natCast]
    rw [if_neg (Ne.symm hc)]
  · cases h

theorem rd_nat {β : Type _} {l : List β} {k : ℕ} {v : β} (h : rd l (k : ℤ) = .ok v) : l[k]? = some v := by
  unfold rd at h
  split at h
  · split at h
    · rename_i w hw
      cases h
      simpa using hw
    · cases h
  · cases h

theorem createFlatPoints32_eq (hp : npart * nprof ≤ maxInt) (hb : nprof * nbins ≤ maxInt) {xp : List ℤ}
    (hx : ∀ v ∈ xp, 0 ≤ v ∧ v < nbins) : createFlatPoints32 xp npart nprof nbins = createFlatPoints xp npart nprof nbins := by
  unfold createFlatPoints32 createFlatPoints
  rw [mul32_ok hp, bind_ok]
  refine forN_congr_inv (fun i f => ∀ k, i * nprof ≤ k → f[k]? = xp[k]?) (fun k _ => rfl) fun i a hi ha => ?_
  have step : ∀ j (f : List ℤ), j < nprof → (∀ k, i * nprof + j ≤ k → f[k]? = xp[k]?) →
      (do
        let k ← idx32 i nprof j
        let v ← rd f k
        let a ← int32 ((nbins : Int) * j)
        let w ← int32 (v + a)
        upd f k w) = (do
        let v ← rd f ((i * nprof + j : Nat) : Int)
        upd f ((i * nprof + j : Nat) : Int) (v + (nbins * j : Nat))) ∧
      ∀ b, (do
        let v ← rd f ((i * nprof + j : Nat) : Int)
        upd f ((i * nprof + j : Nat) : Int) (v + (nbins * j : Nat))) = .ok b → ∀ k, i * nprof + (j + 1) ≤ k → b[k]? = xp[k]? := by
    intro j f hj hf
    rw [idx32_ok ((idx32_lt hi hj).le.trans hp), bind_ok]
    cases hv : rd f ((i * nprof + j : ℕ) : ℤ) with
    | error e => exact ⟨rfl, fun b hb => by cases hb⟩
    | ok v =>
      rw [bind_ok, bind_ok]
      constructor
      · have hm : v ∈ xp := List.mem_of_getElem? ((hf _ le_rfl).symm.trans (rd_nat hv))
        obtain ⟨h1, h2⟩ := hx v hm
        obtain ⟨h3, h4, h5⟩ := bin_fits hb hj h1 h2
        rw [Nat.mul_comm] at h3 h4 h5
        rw [mul32_ok h3, bind_ok, int32_ok (by omega) (by omega), bind_ok]
      · intro b hb k hk
        rw [upd_other hb (by omega)]
        exact hf k (by omega)
  constructor
  · exact forN_congr_inv (fun j f => ∀ k, i * nprof + j ≤ k → f[k]? = xp[k]?) (by simpa using ha) fun j f hj hf => step j f hj hf
  · intro b hb k hk
    have := forN_post (fun j f => ∀ k, i * nprof + j ≤ k → f[k]? = xp[k]?) (by simpa using ha)
      (fun j f g hj hf hg => (step j f hj hf).2 g hg) hb
    refine this k ?_
    rw [Nat.add_mul, Nat.one_mul] at hk
    exact hk

theorem prepare32_eq (hp : npart * nprof ≤ maxInt) (hb : nprof * nbins ≤ maxInt) {xp : List ℤ}
    (hx : ∀ v ∈ xp, 0 ≤ v ∧ v < nbins) : prepare32 (α := α) xp nbins npart nprof = prepare xp nbins npart nprof := by
  unfold prepare32 prepare
  rw [mul32_ok hb, bind_ok, mul32_ok hp, bind_ok, reciprocalParticles32_eq hp hb hx, createFlatPoints32_eq hp hb hx]

theorem firstStep32_eq (hp : npart * nprof ≤ maxInt) (w : List α) (fp : List ℤ) (p : List α) :
    firstStep32 w fp p npart nprof = firstStep w fp p npart nprof := by
  unfold firstStep32 firstStep
  rw [backProject32_eq hp]

theorem iterBody32_eq (hp : npart * nprof ≤ maxInt) (hb : nprof * nbins ≤ maxInt) (sqrt : α → α) (fp : List ℤ) (p r : List α)
    {i : ℕ} (hi : i < maxInt) (st : RState α) :
    iterBody32 sqrt fp p r nbins npart nprof i st = iterBody sqrt fp p r nbins npart nprof i st := by
  unfold iterBody32 iterBody
  rw [project32_eq hp]
  refine bind_congr fun r1 => ?_
  rw [normalize32_eq hb]
  refine bind_congr fun r2 => ?_
  refine bind_congr fun d => ?_
  rw [discrepancy32_eq hb]
  refine bind_congr fun x => ?_
  refine bind_congr fun dd => ?_
  rw [compensate32_eq hb]
  refine bind_congr fun d2 => ?_
  rw [backProject32_eq hp]
  refine bind_congr fun w => ?_
  refine bind_congr fun w2 => ?_
  refine bind_congr fun s => ?_
  rw [succ32_ok hi, bind_ok]

theorem finalStep32_eq (hp : npart * nprof ≤ maxInt) (hb : nprof * nbins ≤ maxInt) (sqrt : α → α) (fp : List ℤ) (p : List α)
    (niter : ℕ) (st : RState α) :
    finalStep32 sqrt fp p nbins npart nprof niter st = finalStep sqrt fp p nbins npart nprof niter st := by
  unfold finalStep32 finalStep
  rw [project32_eq hp]
  refine bind_congr fun r1 => ?_
  rw [normalize32_eq hb]
  refine bind_congr fun r2 => ?_
  refine bind_congr fun d => ?_
  rw [discrepancy32_eq hb]

theorem iterLoop_congr {f g : ℕ → RState α → M (RState α)} {n : ℕ} (niter : ℕ) (st : RState α)
    (h : ∀ i s, i < n → f i s = g i s) : iterLoop f niter n st = iterLoop g niter n st := by
  induction n with
  | zero => rfl
  | succ n ih =>
    unfold iterLoop
    rw [ih fun i s hi => h i s (by omega)]
    rcases iterLoop g niter n st with ⟨log, e | st'⟩
    · rfl
    · dsimp only
      rw [h n st' (by omega)]

theorem reconstructOn32_eq (hp : npart * nprof ≤ maxInt) (hb : nprof * nbins ≤ maxInt) {niter : ℕ} (hn : niter < maxInt)
    {xp : List ℤ} (hx : ∀ v ∈ xp, 0 ≤ v ∧ v < nbins) (sqrt : α → α) (st : RState α) (p : List α) :
    reconstructOn32 sqrt st xp p niter nbins npart nprof = reconstructOn sqrt st xp p niter nbins npart nprof := by
  unfold reconstructOn32 reconstructOn
  rw [prepare32_eq hp hb hx]
  cases h1 : prepare (α := α) xp nbins npart nprof with
  | error e => rfl
  | ok rf =>
    obtain ⟨r, fp⟩ := rf
    dsimp only
    rw [firstStep32_eq hp]
    cases h2 : firstStep st.weights fp p npart nprof with
    | error e => rfl
    | ok w =>
      dsimp only
      rw [iterLoop_congr niter _ fun i s hi => iterBody32_eq hp hb sqrt fp p r (hi.trans hn) s]
      rcases iterLoop (iterBody sqrt fp p r nbins npart nprof) niter niter { st with weights := w } with ⟨log, e | st'⟩
      · rfl
      · dsimp only
        rw [finalStep32_eq hp hb]
        cases finalStep sqrt fp p nbins npart nprof niter st' <;> rfl

theorem reconstruct32_eq (hp : npart * nprof ≤ maxInt) (hb : nprof * nbins ≤ maxInt) {niter : ℕ} (hn : niter < maxInt)
    {xp : List ℤ} (hx : ∀ v ∈ xp, 0 ≤ v ∧ v < nbins) (sqrt : α → α) (p : List α) :
    reconstruct32 sqrt xp p niter nbins npart nprof = reconstruct sqrt xp p niter nbins npart nprof := by
  unfold reconstruct32
  rw [succ32_ok hn, mul32_ok hb]
  exact reconstructOn32_eq hp hb hn hx sqrt _ p

/-- whatever the data: some size does not fit -/
theorem reconstruct32_over {niter : ℕ} (h : maxInt < niter + 1 ∨ maxInt < nprof * nbins ∨ maxInt < npart * nprof) (xp : List ℤ)
    (sqrt : α → α) (p : List α) : reconstruct32 sqrt xp p niter nbins npart nprof = ([], .error .overflow) := by
  unfold reconstruct32
  by_cases h1 : maxInt < niter + 1
  · have e : int32 ((niter : ℤ) + 1) = .error .overflow := int32_over (by unfold maxInt at h1; omega)
    rw [e]
    rfl
  · rw [succ32_ok (by omega)]
    by_cases h2 : maxInt < nprof * nbins
    · rw [mul32_over h2]
      rfl
    · rw [mul32_ok (by omega)]
      have h3 : maxInt < npart * nprof := by omega
      have e : prepare32 (α := α) xp nbins npart nprof = .error .overflow := by
        unfold prepare32
        rw [mul32_ok (by omega), bind_ok, mul32_over h3, bind_error]
      show reconstructOn32 sqrt _ xp p niter nbins npart nprof = _
      unfold reconstructOn32
      rw [e]

end Recon

namespace Img
variable {α : Type _} [Add α] [Zero α]

theorem makePhaseSpace32_eq {nbins : ℕ} (hb : nbins * nbins ≤ maxInt) {xp yp : List ℤ} (hx : ∀ v ∈ xp, 0 ≤ v ∧ v < nbins)
    (hy : ∀ v ∈ yp, 0 ≤ v ∧ v < nbins) (w : List α) : makePhaseSpace32 xp yp w nbins = makePhaseSpace xp yp w nbins := by
  unfold makePhaseSpace32 makePhaseSpace
  rw [mul32_ok hb, bind_ok]
  refine forN_congr _ fun i s hi => ?_
  unfold cellBody32 cellBody
  cases hv : rd yp (i : ℤ) with
  | error e => rfl
  | ok y =>
    rw [bind_ok, bind_ok]
    cases hu : rd xp (i : ℤ) with
    | error e => rfl
    | ok x =>
      rw [bind_ok, bind_ok]
      obtain ⟨h1, h2⟩ := hy y (rd_value hv)
      obtain ⟨h3, h4⟩ := hx x (rd_value hu)
      obtain ⟨a, rfl⟩ := Int.eq_ofNat_of_zero_le h3
      obtain ⟨h5, h6, h7⟩ := Recon.bin_fits (nprof := nbins) hb (j := a) (by omega) h1 h2
      rw [mul32_ok h5, bind_ok, int32_ok (by omega) (by omega), bind_ok]
      push_cast
      rfl

end Img

namespace Track
variable {α : Type _} [Add α] [Sub α] [Mul α]

theorem upBody_fields {sin : α → α} {m : Mach α} {dturns nturns : ℤ} {n : ℕ} {s b : TS α}
    (h : upBody sin m dturns nturns n s = .ok b) :
    b.turn = s.turn + 1 ∧ b.progress = s.progress + 1 ∧ (b.profile = s.profile ∨ b.profile = s.profile + 1) := by
  unfold upBody at h
  obtain ⟨_, _, h⟩ := Asrt.bind_ok_iff.mp h
  obtain ⟨_, _, h⟩ := Asrt.bind_ok_iff.mp h
  obtain ⟨_, _, h⟩ := Asrt.bind_ok_iff.mp h
  obtain ⟨_, _, h⟩ := Asrt.bind_ok_iff.mp h
  obtain ⟨_, _, h⟩ := Asrt.bind_ok_iff.mp h
  obtain ⟨_, _, h⟩ := Asrt.bind_ok_iff.mp h
  obtain ⟨_, _, h⟩ := Asrt.bind_ok_iff.mp h
  obtain ⟨_, _, h⟩ := Asrt.bind_ok_iff.mp h
  split at h
  · obtain ⟨_, _, h⟩ := Asrt.bind_ok_iff.mp h
    obtain ⟨_, _, h⟩ := Asrt.bind_ok_iff.mp h
    cases h
    exact ⟨rfl, rfl, Or.inr rfl⟩
  · cases h
    exact ⟨rfl, rfl, Or.inl rfl⟩

theorem downBody_fields {sin : α → α} {m : Mach α} {dturns nturns : ℤ} {n : ℕ} {s b : TS α}
    (h : downBody sin m dturns nturns n s = .ok b) :
    b.turn = s.turn - 1 ∧ b.progress = s.progress + 1 ∧ (b.profile = s.profile ∨ b.profile = s.profile - 1) := by
  unfold downBody at h
  obtain ⟨_, _, h⟩ := Asrt.bind_ok_iff.mp h
  obtain ⟨_, _, h⟩ := Asrt.bind_ok_iff.mp h
  obtain ⟨_, _, h⟩ := Asrt.bind_ok_iff.mp h
  obtain ⟨_, _, h⟩ := Asrt.bind_ok_iff.mp h
  obtain ⟨_, _, h⟩ := Asrt.bind_ok_iff.mp h
  obtain ⟨_, _, h⟩ := Asrt.bind_ok_iff.mp h
  obtain ⟨_, _, h⟩ := Asrt.bind_ok_iff.mp h
  obtain ⟨_, _, h⟩ := Asrt.bind_ok_iff.mp h
  split at h
  · obtain ⟨_, _, h⟩ := Asrt.bind_ok_iff.mp h
    obtain ⟨_, _, h⟩ := Asrt.bind_ok_iff.mp h
    cases h
    exact ⟨rfl, rfl, Or.inr rfl⟩
  · cases h
    exact ⟨rfl, rfl, Or.inl rfl⟩

theorem upBody32_eq {sin : α → α} {m : Mach α} {dturns nturns : ℤ} {n : ℕ} {s : TS α} (h1 : int32 (s.turn + 1) = .ok (s.turn + 1))
    (h2 : int32 (s.profile + 1) = .ok (s.profile + 1)) (h3 : int32 (s.progress + 1) = .ok (s.progress + 1)) :
    upBody32 sin m dturns nturns n s = upBody sin m dturns nturns n s := by
  unfold upBody32 upBody
  refine bind_congr fun coef => bind_congr fun dphi => ?_
  rw [h1, bind_ok]
  refine bind_congr fun v1 => bind_congr fun v2 => bind_congr fun p0 => bind_congr fun p12 => bind_congr fun acc =>
    bind_congr fun denergy => ?_
  rw [h2, h3]
  simp only [bind_ok]

theorem downBody32_eq {sin : α → α} {m : Mach α} {dturns nturns : ℤ} {n : ℕ} {s : TS α} (h1 : int32 (s.turn - 1) = .ok (s.turn - 1))
    (h2 : int32 (s.profile - 1) = .ok (s.profile - 1)) (h3 : int32 (s.progress + 1) = .ok (s.progress + 1)) :
    downBody32 sin m dturns nturns n s = downBody sin m dturns nturns n s := by
  unfold downBody32 downBody
  refine bind_congr fun v1 => bind_congr fun v2 => bind_congr fun p0 => bind_congr fun p12 => bind_congr fun acc =>
    bind_congr fun denergy => ?_
  rw [h1, bind_ok]
  refine bind_congr fun coef => bind_congr fun dphi => ?_
  rw [h2, h3]
  simp only [bind_ok]

/-- the turns of a tracking that fit into 32 bits -/
structure Fits (dturns recProf deltaturn nturns : ℤ) : Prop where
  pos : 1 ≤ dturns
  first : 0 ≤ recProf
  last : recProf * dturns ≤ nturns
  low : -dturns < deltaturn
  high : deltaturn < dturns
  room : nturns + dturns ≤ 2147483647

theorem kickAndDrift32_eq (sin : α → α) (xp yp : List (List α)) (denergy dphi : List α) (m : Mach α)
    {dturns recProf deltaturn nturns : ℤ} (h : Fits dturns recProf deltaturn nturns) (n : ℕ) :
    kickAndDrift32 sin xp yp denergy dphi m dturns recProf deltaturn nturns n
      = kickAndDrift sin xp yp denergy dphi m dturns recProf deltaturn nturns n := by
  obtain ⟨hd, h0, h1, h2, h3, h4⟩ := h
  have hR : recProf ≤ recProf * dturns := by nlinarith
  unfold kickAndDrift32 kickAndDrift
  generalize hA : recProf * dturns = A at *
  have e1 : int32 A = .ok A := int32_ok (by omega) (by omega)
  have e2 : int32 (A + deltaturn) = .ok (A + deltaturn) := int32_ok (by omega) (by omega)
  have e3 : int32 (recProf - 1) = .ok (recProf - 1) := int32_ok (by omega) (by omega)
  have e4 : startProfile32 recProf deltaturn = .ok (if deltaturn < 0 then recProf - 1 else recProf) := by
    unfold startProfile32
    rw [e3]
    split <;> rfl
  rw [e1, bind_ok, e2, bind_ok, e4, bind_ok]
  dsimp only
  generalize hP : (if deltaturn < 0 then recProf - 1 else recProf) = prof
  have hprof : recProf - 1 ≤ prof ∧ prof ≤ recProf := by
    rw [← hP]
    split <;> omega
  refine bind_congr fun xp' => bind_congr fun yp' => ?_
  obtain ⟨hw, hpost⟩ := whileN_congr_inv (n := (nturns - (A + deltaturn)).toNat) (cond := fun s : TS α => decide (s.turn < nturns))
    (f := upBody32 sin m dturns nturns n) (g := upBody sin m dturns nturns n)
    (s := (⟨xp', yp', dphi, denergy, prof, A + deltaturn, 0, []⟩ : TS α))
    (fun s => s.turn = A + deltaturn + s.progress ∧ 0 ≤ s.progress ∧ (s.progress = 0 ∨ s.turn ≤ nturns) ∧ -1 ≤ s.profile ∧
      s.profile ≤ recProf + s.progress) ⟨by simp, le_rfl, Or.inl rfl, by simp only; omega, by simp only; omega⟩ (by
    rintro a ⟨p1, p2, p3, p4, p5⟩ hc
    have hc' : a.turn < nturns := by simpa using hc
    refine ⟨upBody32_eq (int32_ok (by omega) (by omega)) (int32_ok (by omega) (by omega)) (int32_ok (by omega) (by omega)), fun b hb => ?_⟩
    obtain ⟨q1, q2, q3⟩ := upBody_fields hb
    refine ⟨by omega, by omega, Or.inr (by omega), ?_, ?_⟩ <;> rcases q3 with q3 | q3 <;> omega)
  rw [hw]
  cases hs : whileN (nturns - (A + deltaturn)).toNat (fun s : TS α => decide (s.turn < nturns)) (upBody sin m dturns nturns n)
    ⟨xp', yp', dphi, denergy, prof, A + deltaturn, 0, []⟩ with
  | error e => rfl
  | ok s =>
    obtain ⟨p1, p2, p3, p4, p5⟩ := hpost s hs
    rw [bind_ok, bind_ok, bind_ok]
    split
    · refine bind_congr fun dphi' => bind_congr fun denergy' => ?_
      refine (whileN_congr_inv (s := { s with dphi := dphi', denergy := denergy', profile := recProf, turn := A }) (fun s' : TS α => 0 ≤ s'.progress ∧ s'.progress + s'.turn ≤ nturns + dturns ∧ 0 ≤ s'.turn ∧ s'.turn ≤ A ∧
        recProf + s'.turn ≤ s'.profile + A ∧ s'.profile ≤ recProf) ⟨p2, ?_, ?_, le_refl A, ?_, ?_⟩ ?_).1
      · show s.progress + A ≤ nturns + dturns
        omega
      · show 0 ≤ A
        omega
      · exact le_refl (recProf + A)
      · exact le_refl recProf
      · rintro a ⟨r1, r2, r3, r4, r5, r6⟩ hc
        have hc' : 0 < a.turn := by simpa using hc
        refine ⟨downBody32_eq (int32_ok (by omega) (by omega)) (int32_ok (by omega) (by omega)) (int32_ok (by omega) (by omega)), fun b hb => ?_⟩
        obtain ⟨q1, q2, q3⟩ := downBody_fields hb
        refine ⟨by omega, by omega, by omega, by omega, ?_, ?_⟩ <;> rcases q3 with q3 | q3 <;> omega
    · rfl

theorem rowPointers32_ok {nprofiles nparts : ℕ} (h : (nprofiles - 1) * nparts ≤ maxInt) : rowPointers32 nprofiles nparts = .ok () := by
  have hl : forN nprofiles (fun i (_ : Unit) => do
      let _ ← int32 ((i : ℤ) * nparts)
      pure ()) () = .ok () := by
    refine forN_eq (fun _ => ()) rfl fun i hi => ?_
    have : i * nparts ≤ (nprofiles - 1) * nparts := Nat.mul_le_mul_right nparts (by omega)
    rw [mul32_ok (this.trans h)]
    rfl
  unfold rowPointers32
  rw [hl, bind_ok]

theorem rowPointers32_over {nprofiles nparts : ℕ} (h : maxInt < (nprofiles - 1) * nparts) :
    rowPointers32 nprofiles nparts = .error .overflow := by
  have hl : ∀ n, maxInt < (n - 1) * nparts → forN n (fun i (_ : Unit) => do
      let _ ← int32 ((i : ℤ) * nparts)
      pure ()) () = .error .overflow := by
    intro n
    induction n with
    | zero => exact fun h => by simp at h
    | succ n ih =>
      intro hn
      rw [forN_succ]
      by_cases hc : maxInt < (n - 1) * nparts
      · rw [ih hc, bind_error]
      · have hk : forN n (fun i (_ : Unit) => do
            let _ ← int32 ((i : ℤ) * nparts)
            pure ()) () = .ok () := by
          refine forN_eq (fun _ => ()) rfl fun i hi => ?_
          have : i * nparts ≤ (n - 1) * nparts := Nat.mul_le_mul_right nparts (by omega)
          rw [mul32_ok (by omega)]
          rfl
        rw [hk, bind_ok, mul32_over (by simpa using hn)]
        rfl
  unfold rowPointers32
  rw [hl nprofiles h, bind_error]

theorem wrapperKickAndDrift32_eq (sin : α → α) {xp : List (List α)} (yp : List (List α)) (denergy dphi : List α) (m : Mach α)
    {dturns recProf deltaturn nturns : ℤ} (h : Fits dturns recProf deltaturn nturns) {n : ℕ} (hx : (xp.length - 1) * n ≤ maxInt) :
    wrapperKickAndDrift32 sin xp yp denergy dphi m dturns recProf deltaturn nturns n
      = kickAndDrift sin xp yp denergy dphi m dturns recProf deltaturn nturns n := by
  unfold wrapperKickAndDrift32
  rw [rowPointers32_ok hx, bind_ok, kickAndDrift32_eq sin xp yp denergy dphi m h n]

end Track

end Verif
