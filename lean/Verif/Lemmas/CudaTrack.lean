import Verif.Model.CudaTrack
import Verif.Lemmas.CudaThreads
import Verif.Lemmas.TrackingPy

/-!
# The GPU tracking kernels under every interleaving of their threads
-/

set_option linter.unusedSectionVars false

namespace Verif.Cuda
open Verif.Par Verif.Omp Verif.Track Verif.Spec

section two
variable {α : Type}

/-- `m'` differs from `m` at most in the arrays `a` and `b` -/
def Only2 (a b : Arr) (m m' : Memory α) : Prop := ∀ x, (∀ i, x ≠ .real a i) → (∀ i, x ≠ .real b i) → m' x = m x
/-- elements of `a` and `b` with index in `ix` -/
def Own2 (a b : Arr) (ix : Int → Prop) : Loc → Prop := fun x => ∃ k, ix k ∧ (x = .real a k ∨ x = .real b k)
/-- outside of `a` and `b` -/
def Out2 (a b : Arr) : Loc → Prop := fun x => (∀ i, x ≠ .real a i) ∧ ∀ i, x ≠ .real b i

/-- the thread `p` does to the arrays `a`, `b` what `f` does to two buffers, and touches nothing else -/
def Sim2 (a b : Arr) (m₀ : Memory α) (p : Thread α) (f : List α × List α → M (List α × List α)) : Prop :=
  ∀ m l l', Only2 a b m₀ m → Stores (reals m a) l.1 → Stores (reals m b) l.2 → f l = .ok l' →
    Only2 a b m₀ (p.run m) ∧ Stores (reals (p.run m) a) l'.1 ∧ Stores (reals (p.run m) b) l'.2

theorem only2_update_left {a b : Arr} {m₀ m : Memory α} (h : Only2 a b m₀ m) (i : Int) (v : α) :
    Only2 a b m₀ (Function.update m (.real a i) v) := by
  intro x h1 h2
  rw [Function.update_of_ne (h1 i)]
  exact h x h1 h2

theorem only2_update_right {a b : Arr} {m₀ m : Memory α} (h : Only2 a b m₀ m) (i : Int) (v : α) :
    Only2 a b m₀ (Function.update m (.real b i) v) := by
  intro x h1 h2
  rw [Function.update_of_ne (h2 i)]
  exact h x h1 h2

theorem reals_update_ne {a b : Arr} (hab : a ≠ b) (m : Memory α) (i : Int) (v : α) :
    reals (Function.update m (.real a i) v : Memory α) b = reals m b := by
  funext j
  have : (Loc.real b j) ≠ .real a i := by rintro h; cases h; exact hab rfl
  simp only [reals]
  rw [Function.update_of_ne this]

theorem sim2_for {a b : Arr} {m₀ : Memory α} {n : Nat} {body : Nat → Thread α}
    {f : Nat → List α × List α → M (List α × List α)} (h : ∀ i, i < n → Sim2 a b m₀ (body i) (f i)) :
    Sim2 a b m₀ (Prog.for' n body) (forN n f) := by
  intro m l l' hm h1 h2 hf
  induction n generalizing l' with
  | zero => cases hf; exact ⟨hm, h1, h2⟩
  | succ n ih =>
    rw [forN_succ] at hf
    rw [Prog.run_for_succ]
    cases hn : forN n f l with
    | error e => rw [hn] at hf; cases hf
    | ok l1 =>
      rw [hn, bind_ok] at hf
      obtain ⟨hm1, k1, k2⟩ := ih (fun i hi => h i (by omega)) l1 hn
      exact h n (by omega) _ _ _ hm1 k1 k2 hf

/-- a kernel changing two arrays, the threads touching different elements -/
theorem grid_region2 {a b : Arr} {m₀ : Memory α} {G B : Nat} {body : Nat → Thread α}
    {f : Nat → List α × List α → M (List α × List α)} {l l' : List α × List α} (ix : Nat → Int → Prop) (hab : a ≠ b)
    (hdis : ∀ i j k, i < G * B → j < G * B → i ≠ j → ix i k → ¬ ix j k)
    (hc : ∀ i, i < G * B → Conf m₀ (Out2 a b) (Own2 a b (ix i)) (body i))
    (hs : ∀ i, i < G * B → Sim2 a b m₀ (body i) (f i))
    (h1 : Stores (reals m₀ a) l.1) (h2 : Stores (reals m₀ b) l.2) (hf : forN (G * B) f l = .ok l') :
    Always ⟨m₀, grid G B body⟩
      (fun m => Stores (reals m a) l'.1 ∧ Stores (reals m b) l'.2 ∧ Only2 a b m₀ m) := by
  rw [grid_eq, tab_eq_parallelFor]
  have key := parallelFor_result (m₀ := m₀) (ro := Out2 a b) (own := fun i => Own2 a b (ix i)) (T := G * B) (asg := id)
    (n := G * B) (body := body) (fun i hi => hi)
    (by rintro i x ⟨hx, hy⟩ ⟨k, _, h | h⟩; exacts [hx k h, hy k h])
    (by
      rintro i j x hi hj hne ⟨k, hk, h⟩ ⟨k', hk', h'⟩
      have : k = k' := by
        rcases h with rfl | rfl <;> rcases h' with h' | h' <;> cases h' <;> rfl
      subst this
      exact hdis i j k hi hj hne hk hk')
    hc
  refine ⟨key.terminates, key.progress, fun s' hr hfin => ?_⟩
  rw [key.result s' hr hfin]
  obtain ⟨k1, k2, k3⟩ := sim2_for hs m₀ l l' (fun _ _ _ => rfl) h1 h2 hf
  exact ⟨k2, k3, k1⟩

end two

section
variable {α : Type} [Add α] [Sub α] [Mul α]

/-- elements written by thread `tid` -/
def column (n tid : Nat) : Int → Prop := fun k => tid < n ∧ ∃ q : Int, k = (n : Int) * q + tid

theorem column_disjoint {n i j : Nat} {k : Int} (hne : i ≠ j) (hi : column n i k) : ¬ column n j k := by
  rintro ⟨hj, q', h'⟩
  obtain ⟨hi, q, h⟩ := hi
  have e1 : k % n = i := by rw [h, Int.mul_add_emod_self_left]; exact Int.emod_eq_of_lt (by omega) (by omega)
  have e2 : k % n = j := by rw [h', Int.mul_add_emod_self_left]; exact Int.emod_eq_of_lt (by omega) (by omega)
  omega

theorem conf_put {m₀ : Memory α} {n tid : Nat} (ht : tid < n) (q : Int) (p e : α) {k : Thread α}
    (h : Conf m₀ (Out2 (.xp 0) (.yp 0)) (Own2 (.xp 0) (.yp 0) (column n tid)) k) :
    Conf m₀ (Out2 (.xp 0) (.yp 0)) (Own2 (.xp 0) (.yp 0) (column n tid)) (putBoth n tid q p e k) :=
  ⟨⟨_, ⟨ht, q, rfl⟩, Or.inl rfl⟩, ⟨_, ⟨ht, q, rfl⟩, Or.inr rfl⟩, h⟩

theorem conf_up (sin : α → α) (m : Mach α) (d N : Int) {n tid : Nat} (ht : tid < n) {m₀ : Memory α} (fuel : Nat) (p e : α) (q t : Int) :
    Conf m₀ (Out2 (.xp 0) (.yp 0)) (Own2 (.xp 0) (.yp 0) (column n tid)) (upLoop sin m d N n tid fuel p e q t) := by
  induction fuel generalizing p e q t with
  | zero => trivial
  | succ f ih =>
    unfold upLoop
    split
    · split
      · trivial
      · split
        · exact conf_put ht _ _ _ (ih _ _ _ _)
        · exact ih _ _ _ _
    · trivial

theorem conf_down (sin : α → α) (m : Mach α) (d : Int) {n tid : Nat} (ht : tid < n) {m₀ : Memory α} (fuel : Nat) (p e : α) (q t : Int) :
    Conf m₀ (Out2 (.xp 0) (.yp 0)) (Own2 (.xp 0) (.yp 0) (column n tid)) (downLoop sin m d n tid fuel p e q t) := by
  induction fuel generalizing p e q t with
  | zero => trivial
  | succ f ih =>
    unfold downLoop
    split
    · split
      · trivial
      · split
        · exact conf_put ht _ _ _ (ih _ _ _ _)
        · exact ih _ _ _ _
    · trivial

theorem upBody_regs {sin : α → α} {m : Mach α} {d : Int} {n tid : Nat} {s s' : GS α} (h : upBodyCuda sin m d n tid s = .ok s') :
    ∃ p e, upRegs sin m s.turn s.dphi s.denergy = .ok (p, e) ∧ s'.dphi = p ∧ s'.denergy = e ∧ s'.turn = s.turn + 1 ∧
      if (s.turn + 1).tmod d = 0 then s'.profile = s.profile + 1 ∧ upd s.xp ((n : Int) * (s.profile + 1) + tid) p = .ok s'.xp ∧
        upd s.yp ((n : Int) * (s.profile + 1) + tid) e = .ok s'.yp
      else s'.profile = s.profile ∧ s'.xp = s.xp ∧ s'.yp = s.yp := by
  unfold upBodyCuda at h
  simp only [Asrt.bind_ok_iff] at h
  obtain ⟨coef, hc, v1, h1, v2, h2, p0, h3, p12, h4, acc, h5, h⟩ := h
  refine ⟨_, _, by unfold upRegs; rw [hc, h1, h2, h3, h4, h5]; rfl, ?_⟩
  split at h
  · next ht =>
    rw [if_pos ht]
    simp only [Asrt.bind_ok_iff] at h
    obtain ⟨xp, hx, yp, hy, h⟩ := h
    cases h
    exact ⟨rfl, rfl, rfl, rfl, hx, hy⟩
  · next ht =>
    rw [if_neg ht]
    cases h
    exact ⟨rfl, rfl, rfl, rfl, rfl, rfl⟩

theorem downBody_regs {sin : α → α} {m : Mach α} {d : Int} {n tid : Nat} {s s' : GS α} (h : downBodyCuda sin m d n tid s = .ok s') :
    ∃ p e, downRegs sin m s.turn s.dphi s.denergy = .ok (p, e) ∧ s'.dphi = p ∧ s'.denergy = e ∧ s'.turn = s.turn - 1 ∧
      if (s.turn - 1).tmod d = 0 then s'.profile = s.profile - 1 ∧ upd s.xp ((n : Int) * (s.profile - 1) + tid) p = .ok s'.xp ∧
        upd s.yp ((n : Int) * (s.profile - 1) + tid) e = .ok s'.yp
      else s'.profile = s.profile ∧ s'.xp = s.xp ∧ s'.yp = s.yp := by
  unfold downBodyCuda at h
  simp only [Asrt.bind_ok_iff] at h
  obtain ⟨v1, h1, v2, h2, p0, h3, p12, h4, acc, h5, coef, hc, h⟩ := h
  refine ⟨_, _, by unfold downRegs; rw [hc, h1, h2, h3, h4, h5]; rfl, ?_⟩
  split at h
  · next ht =>
    rw [if_pos ht]
    simp only [Asrt.bind_ok_iff] at h
    obtain ⟨xp, hx, yp, hy, h⟩ := h
    cases h
    exact ⟨rfl, rfl, rfl, rfl, hx, hy⟩
  · next ht =>
    rw [if_neg ht]
    cases h
    exact ⟨rfl, rfl, rfl, rfl, rfl, rfl⟩

/-- the memory holds the buffers of the thread state, and is otherwise unchanged -/
def Rep (m₀ m : Memory α) (xp yp : List α) : Prop :=
  Only2 (.xp 0) (.yp 0) m₀ m ∧ Stores (reals m (.xp 0)) xp ∧ Stores (reals m (.yp 0)) yp

theorem rep_put {m₀ m : Memory α} {xp yp xp' yp' : List α} (h : Rep m₀ m xp yp) {i : Int} {p e : α}
    (hx : upd xp i p = .ok xp') (hy : upd yp i e = .ok yp') :
    Rep m₀ (Function.update (Function.update m (.real (.xp 0) i) p : Memory α) (.real (.yp 0) i) e) xp' yp' := by
  obtain ⟨h1, h2, h3⟩ := h
  refine ⟨only2_update_right (only2_update_left h1 _ _) _ _, ?_, ?_⟩
  · rw [reals_update_ne (by decide), reals_update]
    exact stores_upd h2 hx
  · rw [reals_update, reals_update_ne (by decide)]
    exact stores_upd h3 hy

theorem run_up {sin : α → α} {m : Mach α} {d N : Int} {n tid : Nat} {m₀ : Memory α} (fuel : Nat) {s s' : GS α} {M : Memory α}
    (h : whileN fuel (fun s : GS α => decide (s.turn < N)) (upBodyCuda sin m d n tid) s = .ok s') (hM : Rep m₀ M s.xp s.yp) :
    Rep m₀ ((upLoop sin m d N n tid fuel s.dphi s.denergy s.profile s.turn).run M) s'.xp s'.yp := by
  induction fuel generalizing s M with
  | zero =>
    unfold whileN at h
    split at h
    · cases h
    · cases h; exact hM
  | succ f ih =>
    unfold whileN at h
    unfold upLoop
    by_cases hc : s.turn < N
    · simp only [hc, decide_true, if_true] at h
      rw [if_pos hc]
      cases hb : upBodyCuda sin m d n tid s with
      | error e => rw [hb] at h; cases h
      | ok s1 =>
        rw [hb] at h
        obtain ⟨p, e, hr, hp, he, ht, hif⟩ := upBody_regs hb
        rw [hr]
        dsimp only
        split
        · next h0 =>
          rw [if_pos h0] at hif
          obtain ⟨hq, hx, hy⟩ := hif
          rw [← hp, ← he, ← hq, ← ht]
          rw [← hp, ← hq] at hx
          rw [← he, ← hq] at hy
          exact ih h (rep_put hM hx hy)
        · next h0 =>
          rw [if_neg h0] at hif
          obtain ⟨hq, hx, hy⟩ := hif
          rw [← hp, ← he, ← hq, ← ht]
          exact ih h (by rw [hx, hy]; exact hM)
    · simp only [hc, decide_false, Bool.false_eq_true, if_false] at h
      rw [if_neg hc]
      cases h
      exact hM

theorem run_down {sin : α → α} {m : Mach α} {d : Int} {n tid : Nat} {m₀ : Memory α} (fuel : Nat) {s s' : GS α} {M : Memory α}
    (h : whileN fuel (fun s : GS α => decide (0 < s.turn)) (downBodyCuda sin m d n tid) s = .ok s') (hM : Rep m₀ M s.xp s.yp) :
    Rep m₀ ((downLoop sin m d n tid fuel s.dphi s.denergy s.profile s.turn).run M) s'.xp s'.yp := by
  induction fuel generalizing s M with
  | zero =>
    unfold whileN at h
    split at h
    · cases h
    · cases h; exact hM
  | succ f ih =>
    unfold whileN at h
    unfold downLoop
    by_cases hc : 0 < s.turn
    · simp only [hc, decide_true, if_true] at h
      rw [if_pos hc]
      cases hb : downBodyCuda sin m d n tid s with
      | error e => rw [hb] at h; cases h
      | ok s1 =>
        rw [hb] at h
        obtain ⟨p, e, hr, hp, he, ht, hif⟩ := downBody_regs hb
        rw [hr]
        dsimp only
        split
        · next h0 =>
          rw [if_pos h0] at hif
          obtain ⟨hq, hx, hy⟩ := hif
          rw [← hp, ← he, ← hq, ← ht]
          rw [← hp, ← hq] at hx
          rw [← he, ← hq] at hy
          exact ih h (rep_put hM hx hy)
        · next h0 =>
          rw [if_neg h0] at hif
          obtain ⟨hq, hx, hy⟩ := hif
          rw [← hp, ← he, ← hq, ← ht]
          exact ih h (by rw [hx, hy]; exact hM)
    · simp only [hc, decide_false, Bool.false_eq_true, if_false] at h
      rw [if_neg hc]
      cases h
      exact hM

/-- a launch of either kernel: every interleaving leaves what the launch in the order of the threads leaves -/
theorem launch_kernel {G B n : Nat} {m₀ : Memory α} {dphi denergy xp yp xp' yp' : List α} {profile turn : Int}
    {loop : Nat → GS α → M (GS α)} {tloop : Nat → α → α → Thread α}
    (hconf : ∀ tid, tid < n → ∀ p e, Conf m₀ (Out2 (.xp 0) (.yp 0)) (Own2 (.xp 0) (.yp 0) (column n tid)) (tloop tid p e))
    (hrun : ∀ tid, tid < n → ∀ p e xp yp s' (M : Memory α), loop tid ⟨xp, yp, p, e, profile, turn⟩ = .ok s' → Rep m₀ M xp yp →
      Rep m₀ ((tloop tid p e).run M) s'.xp s'.yp)
    (hp : Stores (reals m₀ .dphi) dphi) (he : Stores (reals m₀ .denergy) denergy)
    (hx : Stores (reals m₀ (.xp 0)) xp) (hy : Stores (reals m₀ (.yp 0)) yp)
    (h : launch (G * B) n dphi denergy loop profile turn xp yp = .ok (xp', yp')) :
    Always ⟨m₀, grid G B (trackThread n tloop)⟩ (fun m => Rep m₀ m xp' yp') := by
  have key := grid_region2 (a := .xp 0) (b := .yp 0) (m₀ := m₀) (G := G) (B := B) (body := trackThread n tloop)
    (l := (xp, yp)) (l' := (xp', yp')) (column n) (by decide) (fun i j k _ _ hne => column_disjoint hne)
    (by
      intro i _
      unfold trackThread
      split
      · next hi =>
        refine Or.inl ⟨⟨by simp, by simp⟩, Or.inl ⟨⟨by simp, by simp⟩, hconf i hi _ _⟩⟩
      · trivial)
    (by
      intro i _ m l l' hm h1 h2 hf
      dsimp only at hf
      unfold trackThread
      split at hf
      · next hi =>
        rw [if_pos hi]
        simp only [Asrt.bind_ok_iff] at hf
        obtain ⟨p, hp', e, he', s, hs, hf⟩ := hf
        cases hf
        have e1 : m (.real .dphi (i : Int)) = p := by rw [hm _ (by simp) (by simp)]; exact hp _ _ hp'
        have e2 : m (.real .denergy (i : Int)) = e := by rw [hm _ (by simp) (by simp)]; exact he _ _ he'
        rw [run_ld e1, run_ld e2]
        exact hrun i hi p e _ _ s m hs ⟨hm, h1, h2⟩
      · next hi =>
        rw [if_neg hi]
        cases hf
        exact ⟨hm, h1, h2⟩)
    hx hy h
  exact ⟨key.terminates, key.progress, fun s hr hf => by
    obtain ⟨k1, k2, k3⟩ := key.result s hr hf
    exact ⟨k3, k1, k2⟩⟩

theorem up_kernel {G B n : Nat} {m₀ : Memory α} {sin : α → α} {m : Mach α} {d N profile turn : Int}
    {dphi denergy xp yp xp' yp' : List α} (hp : Stores (reals m₀ .dphi) dphi) (he : Stores (reals m₀ .denergy) denergy)
    (hx : Stores (reals m₀ (.xp 0)) xp) (hy : Stores (reals m₀ (.yp 0)) yp)
    (h : launch (G * B) n dphi denergy
      (fun tid s => whileN (N - turn).toNat (fun s => decide (s.turn < N)) (upBodyCuda sin m d n tid) s) profile turn xp yp
      = .ok (xp', yp')) :
    Always ⟨m₀, grid G B (upThread sin m d N n profile turn)⟩ (fun M => Rep m₀ M xp' yp') :=
  launch_kernel (fun _ ht p e => conf_up sin m d N ht _ p e profile turn)
    (fun _ _ p e xp yp s' M hw hM => run_up (s := ⟨xp, yp, p, e, profile, turn⟩) _ hw hM) hp he hx hy h

theorem down_kernel {G B n : Nat} {m₀ : Memory α} {sin : α → α} {m : Mach α} {d profile turn : Int}
    {dphi denergy xp yp xp' yp' : List α} (hp : Stores (reals m₀ .dphi) dphi) (he : Stores (reals m₀ .denergy) denergy)
    (hx : Stores (reals m₀ (.xp 0)) xp) (hy : Stores (reals m₀ (.yp 0)) yp)
    (h : launch (G * B) n dphi denergy
      (fun tid s => whileN turn.toNat (fun s => decide (0 < s.turn)) (downBodyCuda sin m d n tid) s) profile turn xp yp
      = .ok (xp', yp')) :
    Always ⟨m₀, grid G B (downThread sin m d n profile turn)⟩ (fun M => Rep m₀ M xp' yp') :=
  launch_kernel (fun _ ht p e => conf_down sin m d ht _ p e profile turn)
    (fun _ _ p e xp yp s' M hw hM => run_down (s := ⟨xp, yp, p, e, profile, turn⟩) _ hw hM) hp he hx hy h

/-! ## Host -/

theorem stores_setFlatRow {g src : Int → α} {l l' s : List α} {q : Int} {n : Nat} (hg : Stores g l) (hs : Stores src s)
    (h : setFlatRow l q s n = .ok l') :
    Stores (fun k => if (n : Int) * q ≤ k ∧ k < (n : Int) * q + n then src (k - n * q) else g k) l' := by
  have gen : ∀ j l', forN j (fun i (xp : List α) => do
      let v ← rd s (i : Int)
      upd xp ((n : Int) * q + i) v) l = .ok l' →
      Stores (fun k => if (n : Int) * q ≤ k ∧ k < (n : Int) * q + j then src (k - n * q) else g k) l' := by
    intro j
    induction j with
    | zero =>
      intro l' h
      cases h
      intro k v hk
      dsimp only
      rw [if_neg (by omega)]
      exact hg k v hk
    | succ j ih =>
      intro l' h
      rw [forN_succ, Asrt.bind_ok_iff] at h
      obtain ⟨l1, h1, h⟩ := h
      rw [Asrt.bind_ok_iff] at h
      obtain ⟨v, hv, h⟩ := h
      have := stores_upd (ih l1 h1) h
      intro k w hk
      have hw := this k w hk
      rw [← hw]
      by_cases e : k = (n : Int) * q + j
      · subst e
        rw [Function.update_self]
        dsimp only
        rw [if_pos (by omega)]
        rw [show (n : Int) * q + (j : Int) - n * q = j by omega]
        exact hs _ _ hv
      · rw [Function.update_of_ne e]
        dsimp only
        by_cases c : (n : Int) * q ≤ k ∧ k < (n : Int) * q + j
        · rw [if_pos c, if_pos (by omega)]
        · rw [if_neg c, if_neg (by omega)]
  exact gen n l' h

theorem stores_getFlatRow {g : Int → α} {l r : List α} {q : Int} {n : Nat} (hg : Stores g l) (h : getFlatRow l q n = .ok r) :
    Stores (fun k => g (n * q + k)) r := by
  intro k v hk
  rw [Omp.rd_some] at hk
  obtain ⟨h0, hk⟩ := hk
  unfold getFlatRow at h
  have gen : ∀ (js : List Nat) r, js.mapM (fun (i : Nat) => rd l ((n : Int) * q + (i : Int))) = .ok r →
      ∀ (k : Nat) (v : α), r[k]? = some v → ∃ i, js[k]? = some i ∧ rd l ((n : Int) * q + (i : Int)) = .ok v := by
    intro js
    induction js with
    | nil => intro r h k v hk; cases h; simp at hk
    | cons j js ih =>
      intro r h k v hk
      rw [List.mapM_cons, Asrt.bind_ok_iff] at h
      obtain ⟨a, ha, h⟩ := h
      rw [Asrt.bind_ok_iff] at h
      obtain ⟨as, has, h⟩ := h
      cases h
      cases k with
      | zero => simp only [List.getElem?_cons_zero, Option.some.injEq] at hk; subst hk; exact ⟨j, rfl, ha⟩
      | succ k =>
        rw [List.getElem?_cons_succ] at hk
        obtain ⟨i, h1, h2⟩ := ih as has k v hk
        exact ⟨i, by rw [List.getElem?_cons_succ]; exact h1, h2⟩
  obtain ⟨i, hi, hv⟩ := gen _ _ h _ _ hk
  have : i = k.toNat := by
    obtain ⟨hlt, hi⟩ := List.getElem?_eq_some_iff.mp hi
    rw [← hi, List.getElem_range]
  subst this
  have := hg _ _ hv
  rw [Int.toNat_of_nonneg h0] at this
  exact this

/-- whatever the interleavings, `kick_and_drift_cuda` leaves what the model with ordered threads returns -/
theorem tracks_ok {sin : α → α} {B : Nat} {m : Mach α} {phi12 : α} {d r δ N : Int} {n : Nat} {m₀ m₁ : Memory α}
    {xp yp denergy dphi xp' yp' : List α} (hp : Stores (reals m₀ .dphi) dphi) (he : Stores (reals m₀ .denergy) denergy)
    (hx : Stores (reals m₀ (.xp 0)) xp) (hy : Stores (reals m₀ (.yp 0)) yp)
    (h : kickAndDriftCuda sin B xp yp denergy dphi m phi12 d r δ N n = .ok (xp', yp'))
    (ht : Tracks sin B m phi12 d r δ N n m₀ m₁) :
    Stores (reals m₁ (.xp 0)) xp' ∧ Stores (reals m₁ (.yp 0)) yp' := by
  unfold kickAndDriftCuda at h
  unfold Tracks at ht
  dsimp only at h ht
  simp only [Asrt.bind_ok_iff] at h
  obtain ⟨x1, hx1, y1, hy1, ⟨x2, y2⟩, hl, h⟩ := h
  obtain ⟨m', ⟨s, hs, hf, rfl⟩, ht⟩ := ht
  have hX := stores_setFlatRow hx hp hx1
  have hY := stores_setFlatRow hy he hy1
  generalize (if δ < 0 then r - 1 else r) = q at hl hs hX hY
  have key := up_kernel (m₀ := hostPut n q m₀) (fun k v hk => by
      have := hp k v hk
      simp only [reals, hostPut] at this ⊢
      split <;> simpa using this)
    (fun k v hk => by
      have := he k v hk
      simp only [reals, hostPut] at this ⊢
      split <;> simpa using this)
    (fun k v hk => by
      have := hX k v hk
      simp only [reals, hostPut] at this ⊢
      simpa using this)
    (fun k v hk => by
      have := hY k v hk
      simp only [reals, hostPut] at this ⊢
      simpa using this) hl
  obtain ⟨_, k2, k3⟩ := key.result s hs hf
  dsimp only at h
  split at h
  · next hr =>
    rw [if_pos hr] at ht
    simp only [Asrt.bind_ok_iff] at h
    obtain ⟨p2, hp2, e2, he2, h⟩ := h
    obtain ⟨s', hs', hf', rfl⟩ := ht
    have key2 := down_kernel (m₀ := hostGet n r s.mem) (fun k v hk => by
        have := stores_getFlatRow k2 hp2 k v hk
        simp only [reals, hostGet] at this ⊢
        simpa using this)
      (fun k v hk => by
        have := stores_getFlatRow k3 he2 k v hk
        simp only [reals, hostGet] at this ⊢
        simpa using this)
      (fun k v hk => by
        have := k2 k v hk
        simp only [reals, hostGet] at this ⊢
        simpa using this)
      (fun k v hk => by
        have := k3 k v hk
        simp only [reals, hostGet] at this ⊢
        simpa using this) h
    obtain ⟨_, l2, l3⟩ := key2.result s' hs' hf'
    exact ⟨l2, l3⟩
  · next hr =>
    rw [if_neg hr] at ht
    cases h
    subst ht
    exact ⟨k2, k3⟩

end
end Verif.Cuda

namespace Verif.Cuda
open Verif.Par Verif.Omp Verif.Track Verif.Spec

section
variable {α : Type}

/-- a kernel whose thread `t < n` touches the phase and the energy of particle `t` only -/
theorem particle_kernel {n G B : Nat} (hn : n ≤ G * B) {kernel : Nat → Thread α} {m₀ : Memory α}
    (hdone : ∀ t, n ≤ t → kernel t = .done)
    (hconf : ∀ t : Nat, t < n → Conf m₀ (Out2 .dphi .denergy) (Own2 .dphi .denergy (fun k => k = (t : Int))) (kernel t)) :
    Always ⟨m₀, grid G B kernel⟩ (fun m =>
      (∀ t : Nat, t < n → m (.real .dphi t) = (kernel t).run m₀ (.real .dphi t) ∧
        m (.real .denergy t) = (kernel t).run m₀ (.real .denergy t)) ∧
      ∀ x, (∀ t : Nat, t < n → x ≠ .real .dphi t ∧ x ≠ .real .denergy t) → m x = m₀ x) := by
  apply always_of_result
  intro s hr hf
  let own : Nat → Loc → Prop := fun t x => t < n ∧ Own2 .dphi .denergy (fun k => k = (t : Int)) x
  have hget : ∀ t p, (grid G B kernel)[t]? = some p → t < G * B ∧ p = kernel t := by
    intro t p h
    rw [grid_eq, getElem?_tab] at h
    split at h
    · rename_i h'; exact ⟨h', by cases h; rfl⟩
    · cases h
  have key := pool_result (m₀ := m₀) (ro := Out2 .dphi .denergy) (own := own) (pool₀ := grid G B kernel)
    (by rintro t x ⟨h1, h2⟩ ⟨_, k, _, h | h⟩; exacts [h1 k h, h2 k h])
    (by
      rintro t u x _ _ hne ⟨_, k, rfl, h⟩ ⟨_, k', rfl, h'⟩
      rcases h with rfl | rfl <;> rcases h' with h' | h' <;> cases h' <;> exact hne rfl)
    (by
      intro t p h
      obtain ⟨_, rfl⟩ := hget t p h
      by_cases ht : t < n
      · exact conf_mono (hconf t ht) fun a ha => ⟨ht, ha⟩
      · rw [hdone t (by omega)]; trivial)
    hr hf
  obtain ⟨k1, k2⟩ := key
  refine ⟨fun t ht => ?_, fun x hx => ?_⟩
  · have hg : (grid G B kernel)[t]? = some (kernel t) := by rw [grid_eq, getElem?_tab, if_pos (by omega)]
    exact ⟨k1 t _ hg _ ⟨ht, _, rfl, Or.inl rfl⟩, k1 t _ hg _ ⟨ht, _, rfl, Or.inr rfl⟩⟩
  · refine k2 x ?_
    rintro t _ ⟨ht, k, rfl, h | h⟩
    · exact (hx t ht).1 h
    · exact (hx t ht).2 h

/-- some interleaving ends -/
theorem exists_final (s : State Loc (Val α)) : ∃ s', Reach s s' ∧ Final s' := by
  induction terminates s with
  | intro s _ ih =>
    rcases progress s with h | ⟨s', h⟩
    · exact ⟨s, .refl, h⟩
    · obtain ⟨s'', h1, h2⟩ := ih s' h
      exact ⟨s'', .head h h1, h2⟩

end
end Verif.Cuda
