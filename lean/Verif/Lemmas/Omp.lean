import Verif.Lemmas.Par
import Verif.Spec.Omp
import Verif.Lemmas.Assertions

/-!
# The parallel loops against the sequential model
-/

set_option linter.unusedSectionVars false

namespace Verif.Omp
open Verif.Par Verif.Spec Verif.Recon Verif.Track

theorem rd_some {β : Type} {l : List β} {i : Int} {v : β} : rd l i = .ok v ↔ 0 ≤ i ∧ l[i.toNat]? = some v := by
  unfold rd
  by_cases h : 0 ≤ i
  · rw [if_pos h]
    cases l[i.toNat]? <;> simp [h]
  · rw [if_neg h]; simp [h]

theorem stores_upd {β : Type} {g : Int → β} {l l' : List β} {i : Int} {v : β} (h : Stores g l)
    (hu : upd l i v = .ok l') : Stores (Function.update g i v) l' := by
  unfold upd at hu
  split at hu
  · rename_i hi
    cases hu
    intro j w hj
    rw [rd_some] at hj
    by_cases e : j = i
    · subst e
      have := hj.2
      rw [List.getElem?_set_self hi.2] at this
      simpa using this
    · rw [Function.update_of_ne e]
      refine h j w (rd_some.mpr ⟨hj.1, ?_⟩)
      rw [← hj.2, List.getElem?_set_ne]
      intro h'; apply e; omega
  · cases hu

section
variable {α : Type}

theorem reals_update (m : Memory α) (a : Arr) (i : Int) (v : α) :
    reals (Function.update m (.real a i) v : Memory α) a = Function.update (reals m a) i v := by
  funext j
  by_cases h : j = i
  · subst h; simp [reals]
  · simp [reals, h]

theorem run_ld {m : Memory α} {a : Arr} {i : Int} {k : α → Thread α} {v : α} (h : m (.real a i) = v) :
    (ld a i k).run m = (k v).run m := by subst h; rfl

theorem run_ldi {m : Memory α} {a : IArr} {i : Int} {k : Int → Thread α} {v : Int} (h : m (.int a i) = v) :
    (ldi a i k).run m = (k v).run m := by subst h; rfl

theorem run_sti {m : Memory α} {a : IArr} {i v : Int} {k : Thread α} :
    (sti a i v k).run m = k.run (Function.update m (.int a i) v : Memory α) := rfl

theorem run_st {m : Memory α} {a : Arr} {i : Int} {v : α} {k : Thread α} :
    (st a i v k).run m = k.run (Function.update m (.real a i) v : Memory α) := rfl

/-- one-array footprints -/
def NotIn (a : Arr) : Loc → Prop := fun x => ∀ i, x ≠ .real a i
def InAt (a : Arr) (ix : Int → Prop) : Loc → Prop := fun x => ∃ i, ix i ∧ x = .real a i

theorem only_refl (a : Arr) (m : Memory α) : OnlyArray a m m := fun _ _ => rfl

theorem only_update {a : Arr} {m₀ m : Memory α} (h : OnlyArray a m₀ m) (i : Int) (v : α) :
    OnlyArray a m₀ (Function.update m (.real a i) v) := by
  intro x hx
  rw [Function.update_of_ne (hx i)]
  exact h x hx

/-- the thread `p` does to the array `a` what `f` does to the buffer, and touches nothing else -/
def Sim (a : Arr) (m₀ : Memory α) (p : Thread α) (f : List α → M (List α)) : Prop :=
  ∀ m l l', OnlyArray a m₀ m → Stores (reals m a) l → f l = .ok l' →
    OnlyArray a m₀ (p.run m) ∧ Stores (reals (p.run m) a) l'

theorem sim_for {a : Arr} {m₀ : Memory α} {n : Nat} {body : Nat → Thread α} {f : Nat → List α → M (List α)}
    (h : ∀ i, i < n → Sim a m₀ (body i) (f i)) : Sim a m₀ (Prog.for' n body) (forN n f) := by
  intro m l l' hm hl hf
  induction n generalizing l' with
  | zero => cases hf; exact ⟨hm, hl⟩
  | succ n ih =>
    rw [forN_succ] at hf
    rw [Prog.run_for_succ]
    cases h1 : forN n f l with
    | error e => rw [h1] at hf; cases hf
    | ok l1 =>
      rw [h1, bind_ok] at hf
      obtain ⟨hm1, hl1⟩ := ih (fun i hi => h i (by omega)) l1 h1
      exact h n (by omega) _ _ _ hm1 hl1 hf

/-- a parallel loop over one array whose iterations touch disjoint indices -/
theorem region {a : Arr} {m₀ : Memory α} {T n : Nat} {asg : Nat → Nat} {body : Nat → Thread α}
    {f : Nat → List α → M (List α)} {l l' : List α} (ix : Nat → Int → Prop) (hasg : Assigned T asg n)
    (hdis : ∀ i j k, i < n → j < n → i ≠ j → ix i k → ¬ ix j k)
    (hc : ∀ i, i < n → Conf m₀ (NotIn a) (InAt a (ix i)) (body i))
    (hs : ∀ i, i < n → Sim a m₀ (body i) (f i)) (hl : Stores (reals m₀ a) l) (hf : forN n f l = .ok l') :
    Always ⟨m₀, parallelFor T asg n body⟩ (fun m => Stores (reals m a) l' ∧ OnlyArray a m₀ m) := by
  have key := parallelFor_result (m₀ := m₀) (ro := NotIn a) (own := fun i => InAt a (ix i)) hasg
    (by rintro i x hx ⟨k, _, rfl⟩; exact hx k rfl)
    (by
      rintro i j x hi hj hne ⟨k, hk, rfl⟩ ⟨k', hk', h⟩
      simp only [Loc.real.injEq, true_and] at h
      subst h
      exact hdis i j k hi hj hne hk hk')
    hc
  refine ⟨key.terminates, key.progress, fun s' hr hfin => ?_⟩
  have hm := key.result s' hr hfin
  rw [hm]
  obtain ⟨h1, h2⟩ := sim_for hs m₀ l l' (only_refl a m₀) hl hf
  exact ⟨h2, h1⟩

theorem conf_ro {a b : Arr} {m₀ : Memory α} {ix : Int → Prop} {i : Int} {k : α → Thread α} (hne : b ≠ a)
    (h : Conf m₀ (NotIn a) (InAt a ix) (k (m₀ (.real b i)))) : Conf m₀ (NotIn a) (InAt a ix) (ld b i k) :=
  Or.inl ⟨fun j e => by cases e; exact hne rfl, h⟩

theorem conf_roi {a : Arr} {b : IArr} {m₀ : Memory α} {ix : Int → Prop} {i : Int} {k : Int → Thread α}
    (h : Conf m₀ (NotIn a) (InAt a ix) (k (m₀ (.int b i)))) : Conf m₀ (NotIn a) (InAt a ix) (ldi b i k) :=
  Or.inl ⟨fun j e => (by cases e), h⟩

theorem conf_own {a : Arr} {m₀ : Memory α} {ix : Int → Prop} {i : Int} {k : α → Thread α} (hi : ix i)
    (h : ∀ v, Conf m₀ (NotIn a) (InAt a ix) (k v)) : Conf m₀ (NotIn a) (InAt a ix) (ld a i k) :=
  Or.inr ⟨⟨i, hi, rfl⟩, h⟩

theorem conf_st {a : Arr} {m₀ : Memory α} {ix : Int → Prop} {i : Int} {v : α} {k : Thread α} (hi : ix i)
    (h : Conf m₀ (NotIn a) (InAt a ix) k) : Conf m₀ (NotIn a) (InAt a ix) (st a i v k) :=
  ⟨⟨i, hi, rfl⟩, h⟩

variable [Add α] [Sub α] [Mul α] [Zero α] [One α] [NatCast α] [IntCast α]
  [LT α] [LE α] [DecidableLT α] [DecidableLE α] [DecidableEq α] [FDiv α]

/-- reading an array the loop does not write -/
theorem only_real {a b : Arr} {m₀ m : Memory α} (h : OnlyArray a m₀ m) (hne : b ≠ a) (i : Int) :
    m (.real b i) = m₀ (.real b i) := h _ fun j e => by cases e; exact hne rfl

theorem only_int {a : Arr} {b : IArr} {m₀ m : Memory α} (h : OnlyArray a m₀ m) (i : Int) :
    m (.int b i) = m₀ (.int b i) := h _ fun j e => by cases e

/-- storing `v` where the model stores `v` -/
theorem sim_store {a : Arr} {m₀ m : Memory α} {l l' : List α} {i : Int} {v : α} (hm : OnlyArray a m₀ m)
    (hl : Stores (reals m a) l) (h : upd l i v = .ok l') :
    OnlyArray a m₀ ((st a i v .done : Thread α).run m) ∧ Stores (reals ((st a i v .done : Thread α).run m) a) l' := by
  show OnlyArray a m₀ (Function.update m (.real a i) v) ∧
    Stores (reals (Function.update m (.real a i) v : Memory α) a) l'
  refine ⟨only_update hm i v, ?_⟩
  rw [reals_update]
  exact stores_upd hl h

/-! ## back_project -/

theorem backProject_region {T : Nat} {asg : Nat → Nat} {npart nprof : Nat} {m₀ : Memory α} {ws ws' pf : List α}
    {fp : List Int} (hasg : Assigned T asg npart) (hw : Stores (reals m₀ .weights) ws)
    (hp : Stores (ints m₀ .points) fp) (hf : Stores (reals m₀ .profiles) pf)
    (h : backProject ws fp pf npart nprof = .ok ws') :
    Always ⟨m₀, parallelFor T asg npart (backProjectBody nprof)⟩
      (fun m => Stores (reals m .weights) ws' ∧ OnlyArray .weights m₀ m) := by
  refine region (fun i k => k = i) hasg (by rintro i j k _ _ hne rfl e; omega) ?_ ?_ hw h
  · intro i _
    apply conf_for
    intro j _
    exact conf_roi (conf_ro (by decide) (conf_own rfl fun _ => conf_st rfl trivial))
  · intro i _
    apply sim_for
    intro j _ m l l' hm hl hu
    simp only [Asrt.bind_ok_iff] at hu
    obtain ⟨q, hq, v, hv, w, hw, hu⟩ := hu
    have e1 : m (.int .points ((i * nprof + j : Nat) : Int)) = q := by rw [only_int hm]; exact hp _ _ hq
    have e2 : m (.real .profiles q) = v := by rw [only_real hm (by decide)]; exact hf _ _ hv
    have e3 : m (.real .weights (i : Int)) = w := hl _ _ hw
    have : (ldi .points ((i * nprof + j : Nat) : Int) fun fp => ld .profiles fp fun v => ld .weights (i : Int) fun w =>
        st .weights (i : Int) (w + v) .done : Thread α).run m = (st .weights (i : Int) (w + v) .done : Thread α).run m := by
      subst e3 e2 e1; rfl
    rw [this]
    exact sim_store hm hl hu

/-! ## clip -/

theorem clip_region {T : Nat} {asg : Nat → Nat} {n : Nat} {m₀ : Memory α} {a : Arr} {l l' : List α} {c : α}
    (hasg : Assigned T asg n) (hl : Stores (reals m₀ a) l) (h : clip l n c = .ok l') :
    Always ⟨m₀, parallelFor T asg n (clipBody a c)⟩ (fun m => Stores (reals m a) l' ∧ OnlyArray a m₀ m) := by
  refine region (fun i k => k = i) hasg (by rintro i j k _ _ hne rfl e; omega) ?_ ?_ hl h
  · intro i _
    refine conf_own rfl fun v => ?_
    split
    · exact conf_st rfl trivial
    · trivial
  · intro i _ m l l' hm hl hu
    simp only [Asrt.bind_ok_iff] at hu
    obtain ⟨v, hv, hu⟩ := hu
    have e : m (.real a (i : Int)) = v := hl _ _ hv
    have : (clipBody a c i).run m = (if v < c then st a (i : Int) c .done else .done : Thread α).run m := by
      subst e; rfl
    rw [this]
    split at hu
    · rename_i hlt; rw [if_pos hlt]; exact sim_store hm hl hu
    · rename_i hlt; rw [if_neg hlt]; cases hu; exact ⟨hm, hl⟩

/-! ## find_difference_profile -/

theorem difference_region {T : Nat} {asg : Nat → Nat} {n : Nat} {m₀ : Memory α} {d d' rc pf : List α}
    (hasg : Assigned T asg n) (hd : Stores (reals m₀ .diff) d) (hr : Stores (reals m₀ .recon) rc)
    (hf : Stores (reals m₀ .profiles) pf) (h : findDifferenceProfile d rc pf n = .ok d') :
    Always ⟨m₀, parallelFor T asg n differenceBody⟩ (fun m => Stores (reals m .diff) d' ∧ OnlyArray .diff m₀ m) := by
  refine region (fun i k => k = i) hasg (by rintro i j k _ _ hne rfl e; omega) ?_ ?_ hd h
  · intro i _
    exact conf_ro (by decide) (conf_ro (by decide) (conf_st rfl trivial))
  · intro i _ m l l' hm hl hu
    simp only [Asrt.bind_ok_iff] at hu
    obtain ⟨v, hv, w, hw, hu⟩ := hu
    have e1 : m (.real .profiles (i : Int)) = v := by rw [only_real hm (by decide)]; exact hf _ _ hv
    have e2 : m (.real .recon (i : Int)) = w := by rw [only_real hm (by decide)]; exact hr _ _ hw
    have : (differenceBody i).run m = (st .diff (i : Int) (v - w) .done : Thread α).run m := by subst e1 e2; rfl
    rw [this]
    exact sim_store hm hl hu

/-! ## compensate_particle_amount -/

theorem row_disjoint {nbins i j i' j' : Nat} (hj : j < nbins) (hj' : j' < nbins)
    (h : ((i * nbins + j : Nat) : Int) = ((i' * nbins + j' : Nat) : Int)) : i = i' := by
  have h' : i * nbins + j = i' * nbins + j' := by exact_mod_cast h
  rw [← idx_div hj (i := i), h', idx_div hj']

theorem compensate_region {T : Nat} {asg : Nat → Nat} {nprof nbins : Nat} {m₀ : Memory α} {d d' rp : List α}
    (hasg : Assigned T asg nprof) (hd : Stores (reals m₀ .diff) d) (hr : Stores (reals m₀ .rparts) rp)
    (h : compensate d rp nprof nbins = .ok d') :
    Always ⟨m₀, parallelFor T asg nprof (compensateBody nbins)⟩
      (fun m => Stores (reals m .diff) d' ∧ OnlyArray .diff m₀ m) := by
  refine region (fun i k => ∃ j, j < nbins ∧ k = ((i * nbins + j : Nat) : Int)) hasg ?_ ?_ ?_ hd h
  · rintro i i' k _ _ hne ⟨j, hj, rfl⟩ ⟨j', hj', e⟩
    exact hne (row_disjoint hj hj' e)
  · intro i _
    apply conf_for
    intro j hj
    exact conf_own ⟨j, hj, rfl⟩ fun _ => conf_ro (by decide) (conf_st ⟨j, hj, rfl⟩ trivial)
  · intro i _
    apply sim_for
    intro j _ m l l' hm hl hu
    simp only [Asrt.bind_ok_iff] at hu
    obtain ⟨v, hv, w, hw, hu⟩ := hu
    have e1 : m (.real .diff ((i * nbins + j : Nat) : Int)) = v := hl _ _ hv
    have e2 : m (.real .rparts ((i * nbins + j : Nat) : Int)) = w := by
      rw [only_real hm (by decide)]; exact hr _ _ hw
    have : (ld .diff ((i * nbins + j : Nat) : Int) fun a => ld .rparts ((i * nbins + j : Nat) : Int) fun r =>
        st .diff ((i * nbins + j : Nat) : Int) (a * r) .done : Thread α).run m
        = (st .diff ((i * nbins + j : Nat) : Int) (v * w) .done : Thread α).run m := by subst e1 e2; rfl
    rw [this]
    exact sim_store hm hl hu

/-! ## zeros to ones -/

theorem zerosToOnes_region {T : Nat} {asg : Nat → Nat} {n : Nat} {m₀ : Memory α} {l l' : List α}
    (hasg : Assigned T asg n) (hl : Stores (reals m₀ .rparts) l) (h : zerosToOnes l n = .ok l') :
    Always ⟨m₀, parallelFor T asg n zerosToOnesBody⟩ (fun m => Stores (reals m .rparts) l' ∧ OnlyArray .rparts m₀ m) := by
  refine region (fun i k => k = i) hasg (by rintro i j k _ _ hne rfl e; omega) ?_ ?_ hl h
  · intro i _
    refine conf_own rfl fun v => ?_
    split
    · exact conf_st rfl trivial
    · trivial
  · intro i _ m l l' hm hl hu
    simp only [Asrt.bind_ok_iff] at hu
    obtain ⟨v, hv, hu⟩ := hu
    have e : m (.real .rparts (i : Int)) = v := hl _ _ hv
    have : (zerosToOnesBody i).run m = (if v = 0 then st .rparts (i : Int) 1 .done else .done : Thread α).run m := by
      subst e; rfl
    rw [this]
    split at hu
    · rename_i hlt; rw [if_pos hlt]; exact sim_store hm hl hu
    · rename_i hlt; rw [if_neg hlt]; cases hu; exact ⟨hm, hl⟩

/-! ## kick and drift -/

/-- a loop `b[i] = g(b[i], a[i])` -/
theorem pair_region {T : Nat} {asg : Nat → Nat} {n : Nat} {m₀ : Memory α} {a b : Arr} (hab : b ≠ a) {la lb lb' : List α}
    {g : α → α → α} {body : Nat → Thread α} {f : Nat → List α → M (List α)}
    (hbody : ∀ i : Nat, Conf m₀ (NotIn a) (InAt a (fun k => k = (i : Int))) (body i))
    (hrun : ∀ (i : Nat) m, (body i).run m = (st a (i : Int) (g (m (.real a (i : Int))) (m (.real b (i : Int)))) .done : Thread α).run m)
    (hf : ∀ (i : Nat) l l', f i l = .ok l' → ∃ x y, rd l (i : Int) = .ok x ∧ rd lb (i : Int) = .ok y ∧
      upd l (i : Int) (g x y) = .ok l')
    (hasg : Assigned T asg n) (ha : Stores (reals m₀ a) la) (hb : Stores (reals m₀ b) lb) (h : forN n f la = .ok lb') :
    Always ⟨m₀, parallelFor T asg n body⟩ (fun m => Stores (reals m a) lb' ∧ OnlyArray a m₀ m) := by
  refine region (fun i k => k = i) hasg (by rintro i j k _ _ hne rfl e; omega) (fun i _ => hbody i) ?_ ha h
  intro i _ m l l' hm hl hu
  obtain ⟨x, y, hx, hy, hu⟩ := hf i l l' hu
  have e1 : m (.real a (i : Int)) = x := hl _ _ hx
  have e2 : m (.real b (i : Int)) = y := by rw [only_real hm hab]; exact hb _ _ hy
  rw [hrun, e1, e2]
  exact sim_store hm hl hu

theorem kickUp_region (sin : α → α) (v1 v2 p0 p12 hr acc : α) {T : Nat} {asg : Nat → Nat} {n : Nat} {m₀ : Memory α}
    {dp de de' : List α} (hasg : Assigned T asg n) (hp : Stores (reals m₀ .dphi) dp) (he : Stores (reals m₀ .denergy) de)
    (h : kickUp sin dp de v1 v2 p0 p12 hr n acc = .ok de') :
    Always ⟨m₀, parallelFor T asg n (kickUpBody sin v1 v2 p0 p12 hr acc)⟩
      (fun m => Stores (reals m .denergy) de' ∧ OnlyArray .denergy m₀ m) := by
  refine pair_region (b := .dphi) (by decide) (g := fun e p => e + energyGain sin v1 v2 p0 p12 hr acc p)
    ?_ (fun _ _ => rfl) ?_ hasg he hp h
  · intro i; exact conf_ro (by decide) (conf_own rfl fun _ => conf_st rfl trivial)
  · intro i l l' hu
    simp only [Asrt.bind_ok_iff] at hu
    obtain ⟨p, hp, e, he, hu⟩ := hu
    exact ⟨e, p, he, hp, hu⟩

theorem kickDown_region (sin : α → α) (v1 v2 p0 p12 hr acc : α) {T : Nat} {asg : Nat → Nat} {n : Nat} {m₀ : Memory α}
    {dp de de' : List α} (hasg : Assigned T asg n) (hp : Stores (reals m₀ .dphi) dp) (he : Stores (reals m₀ .denergy) de)
    (h : kickDown sin dp de v1 v2 p0 p12 hr n acc = .ok de') :
    Always ⟨m₀, parallelFor T asg n (kickDownBody sin v1 v2 p0 p12 hr acc)⟩
      (fun m => Stores (reals m .denergy) de' ∧ OnlyArray .denergy m₀ m) := by
  refine pair_region (b := .dphi) (by decide) (g := fun e p => e - energyGain sin v1 v2 p0 p12 hr acc p)
    ?_ (fun _ _ => rfl) ?_ hasg he hp h
  · intro i; exact conf_ro (by decide) (conf_own rfl fun _ => conf_st rfl trivial)
  · intro i l l' hu
    simp only [Asrt.bind_ok_iff] at hu
    obtain ⟨p, hp, e, he, hu⟩ := hu
    exact ⟨e, p, he, hp, hu⟩

theorem driftUp_region (coef : α) {T : Nat} {asg : Nat → Nat} {n : Nat} {m₀ : Memory α} {dp de dp' : List α}
    (hasg : Assigned T asg n) (hp : Stores (reals m₀ .dphi) dp) (he : Stores (reals m₀ .denergy) de)
    (h : driftUp dp de coef n = .ok dp') :
    Always ⟨m₀, parallelFor T asg n (driftUpBody coef)⟩ (fun m => Stores (reals m .dphi) dp' ∧ OnlyArray .dphi m₀ m) := by
  refine pair_region (b := .denergy) (by decide) (g := fun p e => p - coef * e) ?_ (fun _ _ => rfl) ?_ hasg hp he h
  · intro i; exact conf_own rfl fun _ => conf_ro (by decide) (conf_st rfl trivial)
  · intro i l l' hu
    simp only [Asrt.bind_ok_iff] at hu
    obtain ⟨p, hp, e, he, hu⟩ := hu
    exact ⟨p, e, hp, he, hu⟩

theorem driftDown_region (coef : α) {T : Nat} {asg : Nat → Nat} {n : Nat} {m₀ : Memory α} {dp de dp' : List α}
    (hasg : Assigned T asg n) (hp : Stores (reals m₀ .dphi) dp) (he : Stores (reals m₀ .denergy) de)
    (h : driftDown dp de coef n = .ok dp') :
    Always ⟨m₀, parallelFor T asg n (driftDownBody coef)⟩ (fun m => Stores (reals m .dphi) dp' ∧ OnlyArray .dphi m₀ m) := by
  refine pair_region (b := .denergy) (by decide) (g := fun p e => p + coef * e) ?_ (fun _ _ => rfl) ?_ hasg hp he h
  · intro i; exact conf_own rfl fun _ => conf_ro (by decide) (conf_st rfl trivial)
  · intro i l l' hu
    simp only [Asrt.bind_ok_iff] at hu
    obtain ⟨p, hp, e, he, hu⟩ := hu
    exact ⟨p, e, hp, he, hu⟩

/-! ## copies into and out of the output rows -/

theorem serialFor_result {A : Type} {V : A → Type} [DecidableEq A] {m₀ : Mem A V} {ro : A → Prop} {own : Nat → A → Prop}
    {n : Nat} {body : Nat → Prog A V} (hd : ∀ i a, ro a → ¬ own i a)
    (hdis : ∀ i j a, i < n → j < n → i ≠ j → own i a → ¬ own j a)
    (hc : ∀ i, i < n → Conf m₀ ro (own i) (body i)) :
    (∀ i, i < n → ∀ a, own i a → serialFor n body m₀ a = (body i).run m₀ a) ∧
    (∀ a, (∀ i, i < n → ¬ own i a) → serialFor n body m₀ a = m₀ a) := by
  obtain ⟨h1, h2⟩ := seqs_result hd hdis hc (List.range n) (fun i hi => by simpa using hi) List.nodup_range
    (m := m₀) (fun _ _ => rfl)
  exact ⟨fun i hi => h1 i (by simpa using hi), fun a ha => h2 a fun i hi => ha i (by simpa using hi)⟩

theorem store_region {T : Nat} {asg : Nat → Nat} {n : Nat} {m₀ : Memory α} (p : Int) (hasg : Assigned T asg n) :
    Always ⟨m₀, parallelFor T asg n (storeBody p)⟩ (fun m =>
      (∀ i : Nat, i < n → m (.real (.xp p) i) = m₀ (.real .dphi i) ∧ m (.real (.yp p) i) = m₀ (.real .denergy i)) ∧
      ∀ x, (∀ i : Nat, i < n → x ≠ .real (.xp p) i ∧ x ≠ .real (.yp p) i) → m x = m₀ x) := by
  have hd : ∀ (i : Nat) (a : Loc), (∀ i, a ≠ .real (.xp p) i ∧ a ≠ .real (.yp p) i) →
      ¬ (a = .real (.xp p) (i : Int) ∨ a = .real (.yp p) (i : Int)) := by
    rintro i a h (rfl | rfl)
    · exact (h _).1 rfl
    · exact (h _).2 rfl
  have hdis : ∀ (i j : Nat) (a : Loc), i < n → j < n → i ≠ j → (a = .real (.xp p) (i : Int) ∨ a = .real (.yp p) (i : Int)) →
      ¬ (a = .real (.xp p) (j : Int) ∨ a = .real (.yp p) (j : Int)) := by
    rintro i j a _ _ hne (rfl | rfl) (h | h)
    · simp at h; omega
    · simp at h
    · simp at h
    · simp at h; omega
  have hc : ∀ i, i < n → Conf m₀ (fun a => ∀ i, a ≠ .real (.xp p) i ∧ a ≠ .real (.yp p) i)
      (fun a => a = .real (.xp p) (i : Int) ∨ a = .real (.yp p) (i : Int)) (storeBody p i : Thread α) := by
    intro i _
    exact Or.inl ⟨fun j => ⟨by simp, by simp⟩, Or.inl rfl, Or.inl ⟨fun j => ⟨by simp, by simp⟩, Or.inr rfl, trivial⟩⟩
  have key := parallelFor_result hasg hd hdis hc
  obtain ⟨s1, s2⟩ := serialFor_result hd hdis hc
  refine ⟨key.terminates, key.progress, fun s' hr hf => ?_⟩
  rw [key.result s' hr hf]
  constructor
  · intro i hi
    constructor
    · rw [s1 i hi _ (Or.inl rfl)]
      simp [storeBody, Prog.run]
    · rw [s1 i hi _ (Or.inr rfl)]
      simp [storeBody, Prog.run]
  · intro x hx
    apply s2
    rintro i hi (rfl | rfl)
    · exact (hx i hi).1 rfl
    · exact (hx i hi).2 rfl

theorem load_region {T : Nat} {asg : Nat → Nat} {n : Nat} {m₀ : Memory α} (p : Int) (hasg : Assigned T asg n) :
    Always ⟨m₀, parallelFor T asg n (loadBody p)⟩ (fun m =>
      (∀ i : Nat, i < n → m (.real .dphi i) = m₀ (.real (.xp p) i) ∧ m (.real .denergy i) = m₀ (.real (.yp p) i)) ∧
      ∀ x, (∀ i : Nat, i < n → x ≠ .real .dphi i ∧ x ≠ .real .denergy i) → m x = m₀ x) := by
  have hd : ∀ (i : Nat) (a : Loc), (∀ i, a ≠ .real .dphi i ∧ a ≠ .real .denergy i) →
      ¬ (a = .real .dphi (i : Int) ∨ a = .real .denergy (i : Int)) := by
    rintro i a h (rfl | rfl)
    · exact (h _).1 rfl
    · exact (h _).2 rfl
  have hdis : ∀ (i j : Nat) (a : Loc), i < n → j < n → i ≠ j → (a = .real .dphi (i : Int) ∨ a = .real .denergy (i : Int)) →
      ¬ (a = .real .dphi (j : Int) ∨ a = .real .denergy (j : Int)) := by
    rintro i j a _ _ hne (rfl | rfl) (h | h)
    · simp at h; omega
    · simp at h
    · simp at h
    · simp at h; omega
  have hc : ∀ i, i < n → Conf m₀ (fun a => ∀ i, a ≠ .real .dphi i ∧ a ≠ .real .denergy i)
      (fun a => a = .real .dphi (i : Int) ∨ a = .real .denergy (i : Int)) (loadBody p i : Thread α) := by
    intro i _
    exact Or.inl ⟨fun j => ⟨by simp, by simp⟩, Or.inl rfl, Or.inl ⟨fun j => ⟨by simp, by simp⟩, Or.inr rfl, trivial⟩⟩
  have key := parallelFor_result hasg hd hdis hc
  obtain ⟨s1, s2⟩ := serialFor_result hd hdis hc
  refine ⟨key.terminates, key.progress, fun s' hr hf => ?_⟩
  rw [key.result s' hr hf]
  constructor
  · intro i hi
    constructor
    · rw [s1 i hi _ (Or.inl rfl)]
      simp [loadBody, Prog.run]
    · rw [s1 i hi _ (Or.inr rfl)]
      simp [loadBody, Prog.run]
  · intro x hx
    apply s2
    rintro i hi (rfl | rfl)
    · exact (hx i hi).1 rfl
    · exact (hx i hi).2 rfl

/-! ## project_multi with separate windows -/

theorem projectMulti_region {T : Nat} {asg : Nat → Nat} {npart nprof ncenter : Nat} {m₀ : Memory α} {rc rc' ws : List α}
    {fp cs : List Int} (hasg : Assigned T asg ncenter) (hr : Stores (reals m₀ .recon) rc)
    (hp : Stores (ints m₀ .points) fp) (hcs : Stores (ints m₀ .centers) cs) (hw : Stores (reals m₀ .weights) ws)
    (hsep : ∀ c c' i i' j j' : Nat, c < ncenter → c' < ncenter → c ≠ c' → i < npart → i' < npart → j < nprof → j' < nprof →
      ints m₀ .points ((i * nprof + j : Nat) : Int) + ints m₀ .centers (c : Int)
        ≠ ints m₀ .points ((i' * nprof + j' : Nat) : Int) + ints m₀ .centers (c' : Int))
    (h : Multi.projectMulti rc fp ws cs npart nprof ncenter = .ok rc') :
    Always ⟨m₀, parallelFor T asg ncenter (projectMultiBody npart nprof)⟩
      (fun m => Stores (reals m .recon) rc' ∧ OnlyArray .recon m₀ m) := by
  refine region (fun c k => ∃ i j : Nat, i < npart ∧ j < nprof ∧
    k = ints m₀ .points ((i * nprof + j : Nat) : Int) + ints m₀ .centers (c : Int)) hasg ?_ ?_ ?_ hr h
  · rintro c c' k hc hc' hne ⟨i, j, hi, hj, rfl⟩ ⟨i', j', hi', hj', e⟩
    exact hsep c c' i i' j j' hc hc' hne hi hi' hj hj' e
  · intro c _
    apply conf_for
    intro i hi
    apply conf_for
    intro j hj
    exact conf_roi (conf_roi (conf_own ⟨i, j, hi, hj, rfl⟩ fun _ => conf_ro (by decide)
      (conf_st ⟨i, j, hi, hj, rfl⟩ trivial)))
  · intro c _
    apply sim_for
    intro i _
    apply sim_for
    intro j _ m l l' hm hl hu
    simp only [Asrt.bind_ok_iff] at hu
    obtain ⟨q, hq, z, hz, r, hr, w, hww, hu⟩ := hu
    have e1 : m (.int .points ((i * nprof + j : Nat) : Int)) = q := by rw [only_int hm]; exact hp _ _ hq
    have e2 : m (.int .centers (c : Int)) = z := by rw [only_int hm]; exact hcs _ _ hz
    have e3 : m (.real .recon (q + z)) = r := hl _ _ hr
    have e4 : m (.real .weights ((i + c * npart : Nat) : Int)) = w := by
      rw [only_real hm (by decide)]; exact hw _ _ hww
    have : (ldi .points ((i * nprof + j : Nat) : Int) fun fp => ldi .centers (c : Int) fun ctr =>
        ld .recon (fp + ctr) fun r => ld .weights ((i + c * npart : Nat) : Int) fun w => st .recon (fp + ctr) (r + w) .done :
        Thread α).run m = (st .recon (q + z) (r + w) .done : Thread α).run m := by
      subst e3 e2 e1 e4; rfl
    rw [this]
    exact sim_store hm hl hu

/-! ## the reciprocal with one thread -/

/-- outside the array and the scalar `idx` -/
def OnlyIdx (m m' : Memory α) : Prop := ∀ x, (∀ i, x ≠ .real .rparts i) → x ≠ .int .idx 0 → m' x = m x

theorem reciprocal_serial {nprof nbins : Nat} {m₀ : Memory α} {mx : α} {l l' : List α} (hl : Stores (reals m₀ .rparts) l)
    (h : takeReciprocal mx l nprof nbins = .ok l') :
    Stores (reals (serialFor nprof (reciprocalBody mx nbins) m₀) .rparts) l' ∧
      OnlyIdx m₀ (serialFor nprof (reciprocalBody mx nbins) m₀) := by
  have cell : ∀ i j (m : Memory α) (l l' : List α), Stores (reals m .rparts) l → OnlyIdx m₀ m →
      (do let v ← rd l ((i * nbins + j : Nat) : Int)
          let q ← FDiv.fdiv mx v
          upd l ((i * nbins + j : Nat) : Int) q) = .ok l' →
      Stores (reals ((reciprocalCell mx nbins i j).run m) .rparts) l' ∧ OnlyIdx m₀ ((reciprocalCell mx nbins i j).run m) := by
    intro i j m l l' hl hm hu
    simp only [Asrt.bind_ok_iff] at hu
    obtain ⟨v, hv, q, hq, hu⟩ := hu
    have e : m (.real .rparts ((i * nbins + j : Nat) : Int)) = v := hl _ _ hv
    have hrun : (reciprocalCell mx nbins i j).run m =
        Function.update (Function.update m (.int .idx 0) ((i * nbins + j : Nat) : Int) : Memory α)
          (.real .rparts ((i * nbins + j : Nat) : Int)) q := by
      have e1 : (Function.update m (.int .idx 0) ((i * nbins + j : Nat) : Int) : Memory α) (.int .idx 0)
          = ((i * nbins + j : Nat) : Int) := Function.update_self ..
      have e2 : (Function.update m (.int .idx 0) ((i * nbins + j : Nat) : Int) : Memory α)
          (.real .rparts ((i * nbins + j : Nat) : Int)) = v := by
        rw [Function.update_of_ne (by simp)]; exact e
      unfold reciprocalCell
      rw [run_sti, run_ldi e1, run_ld e2]
      simp only [quot, hq]
      rw [run_ldi e1]
      rfl
    rw [hrun]
    constructor
    · rw [reals_update]
      refine stores_upd ?_ hu
      intro k w hk
      have := hl k w hk
      simpa [reals] using this
    · intro x hx hx'
      rw [Function.update_of_ne (hx _), Function.update_of_ne hx']
      exact hm x hx hx'
  have row : ∀ i n (m : Memory α) (l l' : List α), Stores (reals m .rparts) l → OnlyIdx m₀ m →
      forN n (fun j r => do
        let v ← rd r ((i * nbins + j : Nat) : Int)
        let q ← FDiv.fdiv mx v
        upd r ((i * nbins + j : Nat) : Int) q) l = .ok l' →
      Stores (reals ((Prog.for' n fun j => reciprocalCell mx nbins i j).run m) .rparts) l' ∧
        OnlyIdx m₀ ((Prog.for' n fun j => reciprocalCell mx nbins i j).run m) := by
    intro i n m l l' hl hm hu
    induction n generalizing l' with
    | zero => cases hu; exact ⟨hl, hm⟩
    | succ n ih =>
      rw [forN_succ, Asrt.bind_ok_iff] at hu
      obtain ⟨l1, h1, h2⟩ := hu
      obtain ⟨a, b⟩ := ih l1 h1
      rw [Prog.run_for_succ]
      exact cell i n _ _ _ a b h2
  unfold takeReciprocal at h
  induction nprof generalizing l' with
  | zero => cases h; exact ⟨hl, fun _ _ _ => rfl⟩
  | succ n ih =>
    rw [forN_succ, Asrt.bind_ok_iff] at h
    obtain ⟨l1, h1, h2⟩ := h
    obtain ⟨a, b⟩ := ih h1
    rw [serialFor_succ]
    exact row n nbins _ _ _ a b h2


/-! ## initial memories -/

theorem stores_memOf (r : Arr → List α) (n : IArr → List Int) (b : List Bool) (a : Arr) :
    Stores (reals (memOf r n b) a) (r a) := by
  intro i v h
  rw [rd_some] at h
  show (if 0 ≤ i then (r a).getD i.toNat 0 else 0) = v
  rw [if_pos h.1, List.getD_eq_getElem?_getD, h.2]
  rfl

theorem storesInt_memOf (r : Arr → List α) (n : IArr → List Int) (b : List Bool) (a : IArr) :
    Stores (ints (memOf r n b) a) (n a) := by
  intro i v h
  rw [rd_some] at h
  show (if 0 ≤ i then (n a).getD i.toNat 0 else 0) = v
  rw [if_pos h.1, List.getD_eq_getElem?_getD, h.2]
  rfl

end
end Verif.Omp
