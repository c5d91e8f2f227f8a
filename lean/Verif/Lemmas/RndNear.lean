import Verif.Core.Rnd
import Verif.Spec.RndNear
import Verif.Lemmas.Recon
import Verif.Lemmas.RndQuant
import Mathlib.Algebra.Order.Chebyshev

/-!
# Two runs side by side: the rounded one and the exact one

`Both R a b`: the two computations fail with the same error, or both succeed with related results.  With `R` = "equal up to `k`
roundings", `k` counted cell by cell, this follows the reconstruction through its loops as long as everything is non-negative.
-/

namespace Verif.Rounded
open Verif.Recon Verif.Spec

/-- the same error, or related results -/
def Both {A B : Type} (R : A → B → Prop) : M A → M B → Prop
  | .ok a, .ok b => R a b
  | .error e, .error f => e = f
  | _, _ => False

section monad
variable {A B C D : Type} {R : A → B → Prop} {S : C → D → Prop}

theorem Both.pure {a : A} {b : B} (h : R a b) : Both R (Pure.pure a : M A) (Pure.pure b) := h

theorem Both.bind {x : M A} {y : M B} {f : A → M C} {g : B → M D} (h : Both R x y)
    (hf : ∀ a b, R a b → Both S (f a) (g b)) : Both S (x >>= f) (y >>= g) := by
  cases x <;> cases y
  · exact h
  · exact h.elim
  · exact h.elim
  · exact hf _ _ h

theorem Both.mono {R' : A → B → Prop} {x : M A} {y : M B} (h : Both R x y) (hr : ∀ a b, R a b → R' a b) : Both R' x y := by
  cases x <;> cases y
  · exact h
  · exact h.elim
  · exact h.elim
  · exact hr _ _ h

theorem Both.ok_inv {x : M A} {b : B} (h : Both R x (.ok b)) : ∃ a, x = .ok a ∧ R a b := by
  cases x with
  | error e => exact h.elim
  | ok a => exact ⟨a, rfl, h⟩

theorem Both.of_eq {x x' : M A} {y y' : M B} (hx : x = x') (hy : y = y') (h : Both R x' y') : Both R x y := by rw [hx, hy]; exact h

theorem Both.trans {E : Type} {Q : B → E → Prop} {x : M A} {y : M B} {z : M E} (h : Both R x y) (h' : Both Q y z) :
    Both (fun a c => ∃ b, R a b ∧ Q b c) x z := by
  cases x <;> cases y <;> cases z
  all_goals first | exact (Eq.trans (show _ = _ from h) h' : _) | exact h.elim | exact h'.elim | exact ⟨_, h, h'⟩

/-- a common first step -/
theorem Both.const {x : M A} {f : A → M C} {g : A → M D} (hf : ∀ a, x = .ok a → Both S (f a) (g a)) : Both S (x >>= f) (x >>= g) := by
  cases x with
  | error e => exact rfl
  | ok a => exact hf a rfl

theorem Both.forN {T : ℕ → A → B → Prop} {n : ℕ} {f : ℕ → A → M A} {g : ℕ → B → M B} {s : A} {t : B} (h0 : T 0 s t)
    (hs : ∀ i, i < n → ∀ a b, T i a b → Both (T (i + 1)) (f i a) (g i b)) : Both (T n) (Verif.forN n f s) (Verif.forN n g t) := by
  induction n with
  | zero => exact h0
  | succ n ih =>
    simp only [forN_succ]
    exact Both.bind (ih fun i hi => hs i (by omega)) (hs n (by omega))

theorem Both.ite {p q : Prop} [Decidable p] [Decidable q] {x x' : M A} {y y' : M B} (hp : p ↔ q) (h : q → Both R x y)
    (h' : ¬ q → Both R x' y') : Both R (if p then x else x') (if q then y else y') := by
  by_cases hq : q
  · rw [if_pos hq, if_pos (hp.mpr hq)]; exact h hq
  · rw [if_neg hq, if_neg (fun h => hq (hp.mp h))]; exact h' hq

end monad

/-! ## numbers -/

section numbers
variable {u : ℝ} {k l : ℕ} {x y x' y' : ℝ}

theorem Near.zero_iff (h : Near u k x y) (hu : u < 1) : x = 0 ↔ y = 0 := by
  have hp : 0 < (1 - u) ^ k := pow_pos (by linarith) k
  constructor
  · rintro rfl
    have h1 := h.lower
    have h2 := h.nonneg'
    by_contra hy
    have : 0 < (1 - u) ^ k * y := mul_pos hp (lt_of_le_of_ne h2 (Ne.symm hy))
    linarith
  · rintro rfl
    have h1 := h.upper
    have h2 := h.nonneg
    by_contra hy
    have : 0 < (1 - u) ^ k * x := mul_pos hp (lt_of_le_of_ne h2 (Ne.symm hy))
    linarith

theorem Near.nonpos_iff (h : Near u k x y) (hu : u < 1) : x ≤ 0 ↔ y ≤ 0 := by
  have := h.zero_iff hu
  constructor
  · intro hx; exact (this.mp (le_antisymm hx h.nonneg)).le
  · intro hy; exact (this.mpr (le_antisymm hy h.nonneg')).le

theorem Near.refl (h0 : 0 ≤ u) (hu : u < 1) (hx : 0 ≤ x) : Near u k x x := by
  have h1 : (1 - u) ^ k ≤ 1 := pow_le_one₀ (by linarith) (by linarith)
  exact ⟨hx, hx, by nlinarith, by nlinarith⟩

theorem Near.symm (h : Near u k x y) : Near u k y x := ⟨h.nonneg', h.nonneg, h.upper, h.lower⟩

theorem Near.mono (h0 : 0 ≤ u) (hu : u < 1) (h : Near u k x y) (hkl : k ≤ l) : Near u l x y := by
  have h1 : (1 - u) ^ l ≤ (1 - u) ^ k := pow_le_pow_of_le_one (by linarith) (by linarith) hkl
  exact ⟨h.nonneg, h.nonneg', (mul_le_mul_of_nonneg_right h1 h.nonneg').trans h.lower,
    (mul_le_mul_of_nonneg_right h1 h.nonneg).trans h.upper⟩

theorem Near.trans (hu : u < 1) (h : Near u k x y) (h' : Near u l y x') : Near u (k + l) x x' := by
  have hk : 0 ≤ (1 - u) ^ k := pow_nonneg (by linarith) k
  have hl : 0 ≤ (1 - u) ^ l := pow_nonneg (by linarith) l
  refine ⟨h.nonneg, h'.nonneg', ?_, ?_⟩
  · calc (1 - u) ^ (k + l) * x' = (1 - u) ^ k * ((1 - u) ^ l * x') := by rw [pow_add]; ring
      _ ≤ (1 - u) ^ k * y := mul_le_mul_of_nonneg_left h'.lower hk
      _ ≤ x := h.lower
  · calc (1 - u) ^ (k + l) * x = (1 - u) ^ l * ((1 - u) ^ k * x) := by rw [pow_add]; ring
      _ ≤ (1 - u) ^ l * y := mul_le_mul_of_nonneg_left h.upper hl
      _ ≤ x' := h'.upper

theorem near_rnd {w : World} (hw : w.Accurate u) (h0 : 0 ≤ u) (hu : u < 1) (hx : 0 ≤ x) : Near u 1 (w.rnd x) x := by
  have h := hw.rnd x
  rw [abs_of_nonneg hx] at h
  obtain ⟨h1, h2⟩ := abs_le.mp h
  have : 0 ≤ (1 - u) * x := mul_nonneg (by linarith) hx
  refine ⟨by nlinarith, hx, by rw [pow_one]; nlinarith, ?_⟩
  rw [pow_one]
  have h3 : (1 - u) * w.rnd x ≤ (1 - u) * ((1 + u) * x) := mul_le_mul_of_nonneg_left (by linarith) (by linarith)
  nlinarith [mul_nonneg (mul_nonneg h0 h0) hx]

theorem Near.rnd {w : World} (hw : w.Accurate u) (h0 : 0 ≤ u) (hu : u < 1) (h : Near u k x y) : Near u (k + 1) (w.rnd x) y := by
  rw [add_comm]
  exact (near_rnd hw h0 hu h.nonneg).trans hu h

theorem Near.add (h : Near u k x y) (h' : Near u k x' y') : Near u k (x + x') (y + y') :=
  ⟨add_nonneg h.nonneg h'.nonneg, add_nonneg h.nonneg' h'.nonneg', by have := h.lower; have := h'.lower; linarith,
    by have := h.upper; have := h'.upper; linarith⟩

theorem Near.max (hu : u < 1) (h : Near u k x y) (h' : Near u k x' y') : Near u k (max x x') (max y y') := by
  have hk : 0 ≤ (1 - u) ^ k := pow_nonneg (by linarith) k
  refine ⟨h.nonneg.trans (le_max_left _ _), h.nonneg'.trans (le_max_left _ _), ?_, ?_⟩
  · rw [mul_max_of_nonneg _ _ hk]; exact max_le_max h.lower h'.lower
  · rw [mul_max_of_nonneg _ _ hk]; exact max_le_max h.upper h'.upper

theorem Near.inv (hu : u < 1) (h : Near u k x y) (hy : y ≠ 0) : Near u k x⁻¹ y⁻¹ := by
  have hk : 0 < (1 - u) ^ k := pow_pos (by linarith) k
  have hx : 0 < x := lt_of_le_of_ne h.nonneg (Ne.symm fun e => hy ((h.zero_iff hu).mp e))
  have hy : 0 < y := lt_of_le_of_ne h.nonneg' (Ne.symm hy)
  refine ⟨(inv_pos.mpr hx).le, (inv_pos.mpr hy).le, ?_, ?_⟩
  · rw [← div_eq_mul_inv, div_le_iff₀ hy, ← div_eq_inv_mul, le_div_iff₀ hx]; exact h.upper
  · rw [← div_eq_mul_inv, div_le_iff₀ hx, ← div_eq_inv_mul, le_div_iff₀ hy]; exact h.lower

theorem Near.mul (hu : u < 1) (h : Near u k x y) (h' : Near u l x' y') : Near u (k + l) (x * x') (y * y') := by
  have hk : 0 ≤ (1 - u) ^ k := pow_nonneg (by linarith) k
  have hl : 0 ≤ (1 - u) ^ l := pow_nonneg (by linarith) l
  refine ⟨mul_nonneg h.nonneg h'.nonneg, mul_nonneg h.nonneg' h'.nonneg', ?_, ?_⟩
  · calc (1 - u) ^ (k + l) * (y * y') = ((1 - u) ^ k * y) * ((1 - u) ^ l * y') := by rw [pow_add]; ring
      _ ≤ x * x' := mul_le_mul h.lower h'.lower (mul_nonneg hl h'.nonneg') h.nonneg
  · calc (1 - u) ^ (k + l) * (x * x') = ((1 - u) ^ k * x) * ((1 - u) ^ l * x') := by rw [pow_add]; ring
      _ ≤ y * y' := mul_le_mul h.upper h'.upper (mul_nonneg hl h'.nonneg) h.nonneg'

theorem Near.div (hu : u < 1) (h : Near u k x y) (h' : Near u l x' y') (hy : y' ≠ 0) : Near u (k + l) (x / x') (y / y') := by
  rw [div_eq_mul_inv, div_eq_mul_inv]; exact h.mul hu (h'.inv hu hy)

end numbers

/-! ## arrays -/

/-- cell `i` equal up to `k i` roundings -/
def NearL (u : ℝ) (k : ℕ → ℕ) (a b : List ℝ) : Prop := a.length = b.length ∧ ∀ i, Near u (k i) (a.getD i 0) (b.getD i 0)

section arrays
variable {u : ℝ} {k l : ℕ → ℕ} {a b : List ℝ}

theorem NearL.mono (h0 : 0 ≤ u) (hu : u < 1) (h : NearL u k a b) (hkl : ∀ i, i < a.length → k i ≤ l i) : NearL u l a b := by
  refine ⟨h.1, fun i => ?_⟩
  by_cases hi : i < a.length
  · exact (h.2 i).mono h0 hu (hkl i hi)
  · have ha : a.getD i 0 = 0 := by rw [List.getD_eq_getElem?_getD, List.getElem?_eq_none (by omega)]; rfl
    have hb : b.getD i 0 = 0 := by rw [List.getD_eq_getElem?_getD, List.getElem?_eq_none (by have := h.1; omega)]; rfl
    rw [ha, hb]; exact Near.refl h0 hu le_rfl

theorem NearL.all {n : ℕ} (h0 : 0 ≤ u) (hu : u < 1) (h : NearL u k a b) (hk : ∀ i, i < a.length → k i ≤ n) : NearAll u n a b := by
  have h' : NearL u (fun _ => n) a b := h.mono h0 hu hk
  refine List.forall₂_iff_get.mpr ⟨h'.1, fun i h1 h2 => ?_⟩
  have := h'.2 i
  rw [List.getD_eq_getElem?_getD, List.getD_eq_getElem?_getD, List.getElem?_eq_getElem h1, List.getElem?_eq_getElem h2] at this
  exact this

theorem NearAll.toL {n : ℕ} (h0 : 0 ≤ u) (hu : u < 1) (h : NearAll u n a b) : NearL u (fun _ => n) a b := by
  obtain ⟨h1, h2⟩ := List.forall₂_iff_get.mp h
  refine ⟨h1, fun i => ?_⟩
  by_cases hi : i < a.length
  · rw [List.getD_eq_getElem?_getD, List.getD_eq_getElem?_getD, List.getElem?_eq_getElem hi, List.getElem?_eq_getElem (h1 ▸ hi)]
    exact h2 i hi (h1 ▸ hi)
  · rw [List.getD_eq_getElem?_getD, List.getD_eq_getElem?_getD, List.getElem?_eq_none (by omega),
      List.getElem?_eq_none (by omega)]
    exact Near.refl h0 hu le_rfl

theorem NearL.refl (h0 : 0 ≤ u) (hu : u < 1) (ha : ∀ i, 0 ≤ a.getD i 0) : NearL u k a a := ⟨rfl, fun i => Near.refl h0 hu (ha i)⟩

/-- a read, with what is known of the index when it succeeds -/
theorem NearL.rd (h : NearL u k a b) (i : Int) :
    Both (fun x y => Near u (k i.toNat) x y ∧ 0 ≤ i ∧ i.toNat < a.length) (Verif.rd a i) (Verif.rd b i) := by
  by_cases hi : 0 ≤ i ∧ i.toNat < a.length
  · obtain ⟨h1, h2⟩ := hi
    have e1 : Verif.rd a i = .ok (a.getD i.toNat 0) := by
      unfold Verif.rd; rw [List.getD_eq_getElem?_getD]
      simp [not_lt.mpr h1, List.getElem?_eq_getElem h2]
    have e2 : Verif.rd b i = .ok (b.getD i.toNat 0) := by
      unfold Verif.rd; rw [List.getD_eq_getElem?_getD]
      simp [not_lt.mpr h1, List.getElem?_eq_getElem (show i.toNat < b.length by rw [← h.1]; exact h2)]
    rw [e1, e2]; exact ⟨h.2 _, h1, h2⟩
  · have e : ∀ c : List ℝ, c.length = a.length → ∃ f, f = Fault.oob ∧ Verif.rd c i = .error f := by
      intro c hc
      refine ⟨_, rfl, ?_⟩
      unfold Verif.rd
      by_cases h1 : i < 0
      · simp [h1]
      · have : c[i.toNat]? = none := List.getElem?_eq_none (by omega)
        simp [this]
    obtain ⟨_, rfl, e1⟩ := e a rfl
    obtain ⟨_, rfl, e2⟩ := e b h.1.symm
    rw [e1, e2]; exact rfl

theorem NearL.upd (h : NearL u k a b) (i : Int) {x y : ℝ} {n : ℕ} (hx : Near u n x y) :
    Both (NearL u (Function.update k i.toNat n)) (Verif.upd a i x) (Verif.upd b i y) := by
  by_cases hi : 0 ≤ i ∧ i.toNat < a.length
  · obtain ⟨h1, h2⟩ := hi
    have e1 : Verif.upd a i x = .ok (a.set i.toNat x) := by unfold Verif.upd; simp [not_lt.mpr h1, h2]
    have e2 : Verif.upd b i y = .ok (b.set i.toNat y) := by unfold Verif.upd; simp [not_lt.mpr h1, h.1 ▸ h2]
    rw [e1, e2]
    refine ⟨by simp [h.1], fun j => ?_⟩
    by_cases hj : j = i.toNat
    · subst hj
      rw [Function.update_self, List.getD_eq_getElem?_getD, List.getD_eq_getElem?_getD, List.getElem?_set_self h2,
        List.getElem?_set_self (h.1 ▸ h2)]
      exact hx
    · rw [Function.update_of_ne hj, List.getD_eq_getElem?_getD, List.getD_eq_getElem?_getD,
        List.getElem?_set_ne (Ne.symm hj), List.getElem?_set_ne (Ne.symm hj), ← List.getD_eq_getElem?_getD, ← List.getD_eq_getElem?_getD]
      exact h.2 j
  · have e : ∀ (c : List ℝ) z, c.length = a.length → Verif.upd c i z = .error Fault.oob := by
      intro c z hc
      unfold Verif.upd
      by_cases h1 : i < 0
      · simp [h1]
      · have : ¬ i.toNat < c.length := by omega
        simp [this]
    rw [e a x rfl, e b y h.1.symm]; exact rfl

end arrays

/-! ## the reconstruction -/

section recon
variable {w : World} {u : ℝ} (hw : w.Accurate u) (h0 : 0 ≤ u) (hu : u < 1)
include hw h0 hu

theorem near_add {k : ℕ} {x y x' y' : ℝ} (h : Near u k x y) (h' : Near u k x' y') :
    Near u (k + 1) (HAdd.hAdd (α := Rn w) (β := Rn w) (γ := Rn w) x x') (y + y') := (h.add h').rnd hw h0 hu

theorem near_fdiv {k l : ℕ} {x y x' y' : ℝ} (h : Near u k x y) (h' : Near u l x' y') :
    Both (Near u (k + l + 1)) (FDiv.fdiv (α := Rn w) x x') (FDiv.fdiv y y') := by
  by_cases hy : y' = 0
  · have hx : x' = 0 := (h'.zero_iff hu).mpr hy
    have e1 : FDiv.fdiv (α := Rn w) x x' = .error .nonFinite := if_pos hx
    have e2 : FDiv.fdiv y y' = .error .nonFinite := if_pos hy
    rw [e1, e2]; exact rfl
  · have hx : x' ≠ 0 := fun e => hy ((h'.zero_iff hu).mp e)
    have e1 : FDiv.fdiv (α := Rn w) x x' = .ok (w.rnd (x / x')) := if_neg hx
    have e2 : FDiv.fdiv y y' = .ok (y / y') := if_neg hy
    rw [e1, e2]; exact (h.div hu h' hy).rnd hw h0 hu

theorem near_backProject {fp : List Int} {ws ws' wf wf' : List ℝ} {m n P : ℕ} (hp : NearL u (fun _ => m) wf wf')
    (hws : NearL u (fun _ => m) ws ws') :
    Both (NearL u fun _ => m + P) (backProject (α := Rn w) ws fp wf n P) (backProject ws' fp wf' n P) := by
  unfold backProject
  refine Both.mono (Both.forN (T := fun i a b => NearL u (fun c => if c < i then m + P else m) a b) (by simpa using hws) ?_)
    (fun a b h => h.mono h0 hu fun i _ => by split <;> omega)
  intro i _ a b hab
  refine Both.mono (Both.forN (T := fun j a b => NearL u (fun c => if c < i then m + P else if c = i then m + j else m) a b)
    (hab.mono h0 hu fun c _ => by split_ifs <;> omega) ?_)
    (fun a b h => h.mono h0 hu fun c _ => by split_ifs <;> omega)
  intro j hj a b hab
  refine Both.const fun v _ => ?_
  refine Both.bind (hp.rd v) fun x y hxy => ?_
  refine Both.bind (hab.rd (i : Int)) fun x' y' hxy' => ?_
  have e : ((i : Int)).toNat = i := by simp
  have h1 : Near u (m + j) x' y' := by have := hxy'.1; rw [e] at this; simpa using this
  refine Both.mono (hab.upd (i : Int) (near_add hw h0 hu h1 (hxy.1.mono h0 hu (by omega)))) fun a b h => h.mono h0 hu fun c _ => ?_
  rw [e]
  by_cases hc : c = i
  · subst hc; simp
  · rw [Function.update_of_ne hc]; split_ifs <;> omega

theorem near_project {fp : List Int} {rc rc' ws ws' : List ℝ} {m n P nb : ℕ} (hws : NearL u (fun _ => m) ws ws')
    (hfp : ∀ i j v, i < n → j < P → Verif.rd fp ((i * P + j : ℕ) : Int) = .ok v → v.toNat / nb = j)
    (hrc : NearL u (fun _ => m) rc rc') :
    Both (NearL u fun _ => m + n) (project (α := Rn w) rc fp ws n P) (project rc' fp ws' n P) := by
  unfold project
  refine Both.forN (T := fun i a b => NearL u (fun _ => m + i) a b) hrc ?_
  intro i hi a b hab
  refine Both.mono (Both.forN (T := fun j a b => NearL u (fun c => m + i + if c / nb < j then 1 else 0) a b)
    (by simpa using hab) ?_) (fun a b h => h.mono h0 hu fun c _ => by split_ifs <;> omega)
  intro j hj a b hab
  refine Both.const fun v hv => ?_
  have hrow := hfp i j v hi hj hv
  refine Both.bind (hab.rd v) fun x y hxy => ?_
  refine Both.bind (hws.rd (i : Int)) fun x' y' hxy' => ?_
  have h1 : Near u (m + i) x y := by have := hxy.1; rw [hrow] at this; simpa using this
  refine Both.mono (hab.upd v (near_add hw h0 hu h1 (hxy'.1.mono h0 hu (by omega)))) fun a b h => h.mono h0 hu fun c _ => ?_
  by_cases hc : c = v.toNat
  · subst hc; rw [Function.update_self, hrow]; simp
  · rw [Function.update_of_ne hc]; split_ifs <;> omega

theorem near_sum {k : ℕ → ℕ} {a b : List ℝ} {m n : ℕ} (h : NearL u k a b) (hk : ∀ i, k i ≤ m) :
    Both (Near u (m + n)) (Recon.sum (α := Rn w) a n) (Recon.sum b n) := by
  unfold Recon.sum
  refine Both.forN (T := fun i x y => Near u (m + i) x y) (Near.refl h0 hu le_rfl) ?_
  intro i _ x y hxy
  refine Both.bind (h.rd (i : Int)) fun x' y' h' => ?_
  exact Both.pure (near_add hw h0 hu hxy (h'.1.mono h0 hu ((hk _).trans (Nat.le_add_right m i))))

theorem near_normalize {rc rc' : List ℝ} {m P nb : ℕ} (hrc : NearL u (fun _ => m) rc rc') :
    Both (NearL u fun _ => 2 * m + nb + 1) (Recon.normalize (α := Rn w) rc P nb) (Recon.normalize rc' P nb) := by
  unfold Recon.normalize
  refine Both.bind (Both.forN (T := fun i (a : List ℝ × ℝ) (b : List ℝ × ℝ) =>
    NearL u (fun c => if c < i * nb then 2 * m + nb + 1 else m) a.1 b.1 ∧ Near u (m + nb + i) a.2 b.2)
    ⟨hrc.mono h0 hu fun c _ => by simp, Near.refl h0 hu le_rfl⟩ ?_) ?_
  · rintro i _ ⟨a, s⟩ ⟨b, t⟩ ⟨hab, hst⟩
    refine Both.bind (R := Near u (m + nb)) ?_ ?_
    · refine Both.forN (T := fun j x y => Near u (m + j) x y) (Near.refl h0 hu le_rfl) ?_
      intro j hj x y hxy
      refine Both.bind (hab.rd ((i * nb + j : ℕ) : Int)) fun x' y' h' => ?_
      have h1 : Near u m x' y' := by
        have := h'.1
        rw [Int.toNat_natCast, if_neg (by omega)] at this
        exact this
      exact Both.pure (near_add hw h0 hu hxy (h1.mono h0 hu (Nat.le_add_right _ _)))
    · intro sp sp' hsp
      refine Both.bind (R := NearL u (fun c => if c < (i + 1) * nb then 2 * m + nb + 1 else m)) ?_ ?_
      · refine Both.mono (Both.forN (T := fun j a b => NearL u (fun c => if c < i * nb + j then 2 * m + nb + 1 else m) a b)
          (by simpa using hab) ?_) (fun a b h => h.mono h0 hu fun c _ => le_of_eq (by simp only [Nat.add_one_mul]))
        intro j hj a b hab
        refine Both.bind (hab.rd ((i * nb + j : ℕ) : Int)) fun x' y' h' => ?_
        have h1 : Near u m x' y' := by
          have := h'.1
          rw [Int.toNat_natCast, if_neg (by omega)] at this
          exact this
        refine Both.bind (near_fdiv hw h0 hu h1 hsp) fun q q' hq => ?_
        refine Both.mono (hab.upd _ hq) fun a b h => h.mono h0 hu fun c _ => ?_
        rw [Int.toNat_natCast]
        by_cases hc : c = i * nb + j
        · subst hc; rw [Function.update_self, if_pos (by omega)]; omega
        · rw [Function.update_of_ne hc]; split_ifs <;> omega
      · intro a b hab
        exact Both.pure ⟨hab, near_add hw h0 hu hst (hsp.mono h0 hu (Nat.le_add_right _ _))⟩
  · rintro ⟨a, s⟩ ⟨b, t⟩ ⟨hab, hst⟩
    refine Both.ite (hst.nonpos_iff hu) (fun _ => rfl) fun _ => ?_
    exact Both.pure (hab.mono h0 hu fun c _ => by split_ifs <;> omega)

omit hw h0 hu in
theorem near_clip {k : ℕ → ℕ} {a b : List ℝ} {n : ℕ} (h : NearL u k a b) :
    Both (NearL u k) (clip (α := Rn w) a n 0) (clip b n 0) := by
  unfold clip
  refine Both.forN (T := fun _ a b => NearL u k a b) h ?_
  intro i _ a b hab
  refine Both.bind (hab.rd (i : Int)) fun x y hxy => ?_
  have hx : ¬ (LT.lt (α := Rn w) x 0) := not_lt.mpr hxy.1.nonneg
  rw [if_neg hx, if_neg (not_lt.mpr hxy.1.nonneg')]
  exact Both.pure hab

theorem near_firstStep {fp : List Int} {ws ws' wf wf' : List ℝ} {m n P : ℕ} (hp : NearL u (fun _ => m) wf wf')
    (hws : NearL u (fun _ => m) ws ws') :
    Both (NearL u fun _ => m + P) (firstStep (α := Rn w) ws fp wf n P) (firstStep ws' fp wf' n P) := by
  unfold firstStep
  refine Both.bind (near_backProject hw h0 hu hp hws) fun a b hab => ?_
  refine Both.bind (near_clip hab) fun a b hab => ?_
  refine Both.bind (near_sum hw h0 hu hab fun _ => le_rfl) fun x y hxy => ?_
  exact Both.ite (hxy.nonpos_iff hu) (fun _ => rfl) fun _ => Both.pure hab

omit hw in
theorem both_max {k l : ℕ} {x y x' y' : ℝ} (h : Near u l x y) (h' : Near u k x' y') :
    Both (fun x y : ℝ => ∃ k, Near u k x y) (if x < x' then (Pure.pure x' : M ℝ) else Pure.pure x)
      (if y < y' then Pure.pure y' else Pure.pure y) := by
  have e : ∀ p q : ℝ, (if p < q then (Pure.pure q : M ℝ) else Pure.pure p) = Pure.pure (max p q) := by
    intro p q
    by_cases h : p < q
    · rw [if_pos h, max_eq_right h.le]
    · rw [if_neg h, max_eq_left (not_lt.mp h)]
  rw [e, e]
  exact Both.pure ⟨max l k, (h.mono h0 hu (le_max_left _ _)).max hu (h'.mono h0 hu (le_max_right _ _))⟩

/-- the reciprocals: only success matters -/
theorem near_reciprocal {xp : List Int} {rp rp' : List ℝ} {n P nb : ℕ} (h : NearL u (fun _ => 0) rp rp') :
    Both (fun a b : List ℝ => a.length = b.length) (reciprocalParticles (α := Rn w) rp xp nb P n) (reciprocalParticles rp' xp nb P n) := by
  unfold reciprocalParticles
  refine Both.bind (R := fun a b : List ℝ => ∃ k, NearL u k a b) ?_ ?_
  · unfold countParticlesInBin
    refine Both.forN (T := fun _ (a b : List ℝ) => ∃ k, NearL u k a b) ⟨_, h⟩ ?_
    intro i _ a b hab
    refine Both.forN (T := fun _ (a b : List ℝ) => ∃ k, NearL u k a b) hab ?_
    rintro j _ a b ⟨k, hab⟩
    refine Both.const fun v _ => ?_
    refine Both.bind (hab.rd _) fun x y hxy => ?_
    exact Both.mono (hab.upd _ (near_add hw h0 hu hxy.1 (Near.refl (x := (1 : ℝ)) h0 hu zero_le_one))) fun _ _ h => ⟨_, h⟩
  rintro a b ⟨k, hab⟩
  refine Both.bind (R := fun x y : ℝ => ∃ k, Near u k x y) ?_ ?_
  · unfold max1d
    refine Both.forN (T := fun _ (x y : ℝ) => ∃ k, Near u k x y) ⟨0, Near.refl h0 hu le_rfl⟩ ?_
    rintro i _ x y ⟨l, hxy⟩
    refine Both.bind (hab.rd _) fun x' y' h' => ?_
    exact both_max h0 hu hxy h'.1
  rintro mx mx' ⟨l, hm⟩
  refine Both.bind (R := fun a b : List ℝ => ∃ k, NearL u k a b) ?_ ?_
  · unfold zerosToOnes
    refine Both.forN (T := fun _ (a b : List ℝ) => ∃ k, NearL u k a b) ⟨_, hab⟩ ?_
    rintro i _ a b ⟨k, hab⟩
    refine Both.bind (hab.rd _) fun x y hxy => ?_
    refine Both.ite (hxy.1.zero_iff hu) (fun _ => ?_) fun _ => Both.pure ⟨_, hab⟩
    exact Both.mono (hab.upd _ (Near.refl (x := (1 : ℝ)) (k := 0) h0 hu zero_le_one)) fun _ _ h => ⟨_, h⟩
  intro a b hab
  refine Both.mono (R := fun a b : List ℝ => ∃ k, NearL u k a b) ?_ fun a b ⟨k, h⟩ => h.1
  unfold takeReciprocal
  refine Both.forN (T := fun _ (a b : List ℝ) => ∃ k, NearL u k a b) hab ?_
  intro i _ a b hab
  refine Both.forN (T := fun _ (a b : List ℝ) => ∃ k, NearL u k a b) hab ?_
  rintro j _ a b ⟨k, hab⟩
  refine Both.bind (hab.rd _) fun x y hxy => ?_
  refine Both.bind (near_fdiv hw h0 hu hm hxy.1) fun q q' hq => ?_
  exact Both.mono (hab.upd _ hq) fun _ _ h => ⟨_, h⟩

end recon

/-! ## the discrepancy -/

section discrepancy
variable {u : ℝ} (h0 : 0 ≤ u) (hu : u < 1)
include h0 hu

theorem Near.sqrt {k : ℕ} {x y : ℝ} (h : Near u k x y) : Near u k (Real.sqrt x) (Real.sqrt y) := by
  have hk : 0 ≤ (1 - u) ^ k := pow_nonneg (by linarith) k
  have hk1 : (1 - u) ^ k ≤ 1 := pow_le_one₀ (by linarith) (by linarith)
  have key : ∀ a b : ℝ, 0 ≤ a → (1 - u) ^ k * a ≤ b → (1 - u) ^ k * Real.sqrt a ≤ Real.sqrt b := by
    intro a b ha hab
    refine Real.le_sqrt_of_sq_le ?_
    rw [mul_pow, Real.sq_sqrt ha]
    refine le_trans (mul_le_mul_of_nonneg_right ?_ ha) hab
    nlinarith
  exact ⟨Real.sqrt_nonneg _, Real.sqrt_nonneg _, key _ _ h.nonneg' h.lower, key _ _ h.nonneg h.upper⟩

theorem near_wsqrt {w : World} (hw : w.Accurate u) {k : ℕ} {x y : ℝ} (h : Near u k x y) : Near u (k + 1) (w.sqrt x) (Real.sqrt y) := by
  have h1 : Near u 1 (w.sqrt x) (Real.sqrt x) := by
    have h := hw.sqrt x h.nonneg
    obtain ⟨h1, h2⟩ := abs_le.mp h
    have hx := Real.sqrt_nonneg x
    have : 0 ≤ (1 - u) * Real.sqrt x := mul_nonneg (by linarith) hx
    refine ⟨by nlinarith, hx, by rw [pow_one]; nlinarith, ?_⟩
    rw [pow_one]
    have h3 : (1 - u) * w.sqrt x ≤ (1 - u) * ((1 + u) * Real.sqrt x) := mul_le_mul_of_nonneg_left (by linarith) (by linarith)
    nlinarith [mul_nonneg (mul_nonneg h0 h0) hx]
  rw [add_comm]
  exact h1.trans hu (h.sqrt h0 hu)

theorem near_discrepancy {w : World} (hw : w.Accurate u) (d : List ℝ) (P nb : ℕ) :
    Both (Near u (P * nb + 4)) (discrepancy (α := Rn w) w.sqrt d P nb) (discrepancy Real.sqrt d P nb) := by
  unfold discrepancy
  refine Both.bind (Both.forN (T := fun i x y => Near u (i + 1) x y) (Near.refl h0 hu le_rfl) ?_) ?_
  · intro i _ x y hxy
    refine Both.const (A := ℝ) fun v _ => ?_
    refine Both.pure (near_add hw h0 hu hxy ((near_rnd hw h0 hu (mul_self_nonneg v)).mono h0 hu (Nat.le_add_left _ _)))
  · intro x y hxy
    have hN : Near u 1 (w.rnd ((P * nb : ℕ) : ℝ)) ((P * nb : ℕ) : ℝ) := near_rnd hw h0 hu (Nat.cast_nonneg _)
    refine Both.bind (near_fdiv hw h0 hu hxy hN) fun q q' hq => ?_
    exact Both.pure (near_wsqrt h0 hu hw hq)

end discrepancy

/-- the root of the mean of the squares moves by no more than the numbers do -/
theorem rms_close {N : ℕ} {f g : ℕ → ℝ} {η : ℝ} (hη : 0 ≤ η) (h : ∀ i, |f i - g i| ≤ η) :
    Real.sqrt ((∑ i ∈ Finset.range N, f i * f i) / N) ≤ Real.sqrt ((∑ i ∈ Finset.range N, g i * g i) / N) + η := by
  rcases Nat.eq_zero_or_pos N with rfl | hN
  · simpa using hη
  have hNr : (0 : ℝ) < N := Nat.cast_pos.mpr hN
  set G := (∑ i ∈ Finset.range N, g i * g i) / N with hG
  have hG0 : 0 ≤ G := div_nonneg (Finset.sum_nonneg fun i _ => mul_self_nonneg _) hNr.le
  have hmean : (∑ i ∈ Finset.range N, |g i|) / N ≤ Real.sqrt G := by
    refine Real.le_sqrt_of_sq_le ?_
    rw [div_pow, hG, div_le_div_iff₀ (by positivity) hNr]
    have := sq_sum_le_card_mul_sum_sq (s := Finset.range N) (f := fun i => |g i|)
    simp only [sq_abs, Finset.card_range] at this
    have e : ∀ i, g i * g i = g i ^ 2 := fun i => by ring
    simp only [e]
    nlinarith
  rw [Real.sqrt_le_left (by positivity), div_le_iff₀ hNr]
  have hs : Real.sqrt G ^ 2 = G := Real.sq_sqrt hG0
  have h1 : ∑ i ∈ Finset.range N, f i * f i ≤ ∑ i ∈ Finset.range N, (g i * g i + 2 * η * |g i| + η ^ 2) := by
    refine Finset.sum_le_sum fun i _ => ?_
    have h2 : |f i| ≤ |g i| + η := by
      have := abs_sub_abs_le_abs_sub (f i) (g i)
      linarith [h i]
    have h3 : f i * f i = |f i| ^ 2 := by rw [sq_abs]; ring
    have h4 : g i * g i = |g i| ^ 2 := by rw [sq_abs]; ring
    rw [h3, h4]
    nlinarith [abs_nonneg (f i), abs_nonneg (g i)]
  rw [Finset.sum_add_distrib, Finset.sum_add_distrib, ← Finset.mul_sum, Finset.sum_const, Finset.card_range, nsmul_eq_mul] at h1
  rw [div_le_iff₀ hNr] at hmean
  have h5 : ∑ i ∈ Finset.range N, g i * g i = G * N := by rw [hG]; field_simp
  have h6 : 2 * η * ∑ i ∈ Finset.range N, |g i| ≤ 2 * η * (Real.sqrt G * N) := mul_le_mul_of_nonneg_left hmean (by linarith)
  calc _ ≤ _ := h1
    _ ≤ G * N + 2 * η * (Real.sqrt G * N) + N * η ^ 2 := by linarith
    _ = (Real.sqrt G + η) ^ 2 * N := by rw [add_sq, hs]; ring

theorem disc_close {a b : List ℝ} (hl : a.length = b.length) (P nb : ℕ) :
    Both (fun d e : ℝ => ∀ η, 0 ≤ η → (∀ i, |a.getD i 0 - b.getD i 0| ≤ η) → |d - e| ≤ η) (discrepancy Real.sqrt a P nb) (discrepancy Real.sqrt b P nb) := by
  unfold discrepancy
  refine Both.bind (Both.forN (T := fun i x y => x = ∑ k ∈ Finset.range i, a.getD k 0 * a.getD k 0 ∧
    y = ∑ k ∈ Finset.range i, b.getD k 0 * b.getD k 0) (by simp) ?_) ?_
  · rintro i _ x y ⟨rfl, rfl⟩
    by_cases hi : i < a.length
    · have e : ∀ c : List ℝ, i < c.length → Verif.rd c (i : Int) = .ok (c.getD i 0) := by
        intro c hc
        unfold Verif.rd
        rw [List.getD_eq_getElem?_getD]
        simp [List.getElem?_eq_getElem hc]
      rw [e a hi, e b (hl ▸ hi), bind_ok, bind_ok]
      exact Both.pure ⟨by rw [Finset.sum_range_succ], by rw [Finset.sum_range_succ]⟩
    · have e : ∀ c : List ℝ, c.length = a.length → Verif.rd c (i : Int) = .error .oob := by
        intro c hc
        unfold Verif.rd
        have : c[i]? = none := List.getElem?_eq_none (by omega)
        simp [this]
      rw [e a rfl, e b hl.symm]
      exact rfl
  · rintro x y ⟨rfl, rfl⟩
    by_cases hN : (((P * nb : ℕ) : ℝ)) = 0
    · have e : ∀ x : ℝ, FDiv.fdiv x (((P * nb : ℕ) : ℝ)) = .error .nonFinite := fun x => if_pos hN
      rw [e, e]; exact rfl
    · have e : ∀ x : ℝ, FDiv.fdiv x (((P * nb : ℕ) : ℝ)) = .ok (x / ((P * nb : ℕ) : ℝ)) := fun x => if_neg hN
      rw [e, e, bind_ok, bind_ok]
      refine Both.pure fun η hη h => abs_le.mpr ⟨?_, ?_⟩
      · have := rms_close (N := P * nb) hη (fun i => (abs_sub_comm (b.getD i 0) (a.getD i 0)).trans_le (h i))
        linarith
      · have := rms_close (N := P * nb) hη h
        linarith

theorem slack_nonneg {u : ℝ} (h0 : 0 ≤ u) (hu : u < 1) (k : ℕ) : 0 ≤ slack u k := by
  have hk : 0 < (1 - u) ^ k := pow_pos (by linarith) k
  have hk1 : (1 - u) ^ k ≤ 1 := pow_le_one₀ (by linarith) (by linarith)
  unfold slack
  rw [sub_nonneg, le_div_iff₀ hk]
  nlinarith

theorem near_sub {w : World} {u : ℝ} (hw : w.Accurate u) (h0 : 0 ≤ u) (hu : u < 1) {k : ℕ} {p p' r r' : ℝ} (hp : Near u k p p')
    (hr : Near u k r r') (hp1 : p' ≤ 1) (hr1 : r' ≤ 1) : |w.rnd (p - r) - (p' - r')| ≤ slack u k := by
  have hk : 0 < (1 - u) ^ k := pow_pos (by linarith) k
  have hk1 : (1 - u) ^ k ≤ 1 := pow_le_one₀ (by linarith) (by linarith)
  set q := (1 - u) ^ k with hq
  have hi : 1 ≤ q⁻¹ := one_le_inv_iff₀.mpr ⟨hk, hk1⟩
  have key : ∀ x y : ℝ, Near u k x y → y ≤ 1 → x ≤ q⁻¹ ∧ |x - y| ≤ q⁻¹ - 1 := by
    intro x y h hy
    have h1 : x ≤ y * q⁻¹ := by rw [← div_eq_mul_inv, le_div_iff₀ hk]; have := h.upper; rw [← hq] at this; linarith
    have h2 : q * y ≤ x := h.lower
    have h3 := h.nonneg'
    have h4 : y * q⁻¹ ≤ q⁻¹ := by nlinarith
    have h5 : q + q⁻¹ ≥ 2 := by
      have : q * q⁻¹ = 1 := mul_inv_cancel₀ hk.ne'
      nlinarith [sq_nonneg (q - 1), sq_nonneg (q⁻¹ - 1)]
    refine ⟨h1.trans h4, abs_le.mpr ⟨by nlinarith, by nlinarith⟩⟩
  obtain ⟨a1, a2⟩ := key p p' hp hp1
  obtain ⟨b1, b2⟩ := key r r' hr hr1
  have h1 := hw.rnd (p - r)
  have h2 : |p - r| ≤ q⁻¹ := abs_le.mpr ⟨by have := hp.nonneg; linarith, by have := hr.nonneg; linarith⟩
  have h3 : u * |p - r| ≤ u * q⁻¹ := mul_le_mul_of_nonneg_left h2 h0
  have e : w.rnd (p - r) - (p' - r') = (w.rnd (p - r) - (p - r)) + (p - p') - (r - r') := by ring
  rw [e]
  have h4 := abs_sub ((w.rnd (p - r) - (p - r)) + (p - p')) (r - r')
  have h5 := abs_add_le (w.rnd (p - r) - (p - r)) (p - p')
  unfold slack
  rw [div_eq_mul_inv, ← hq]
  linarith

theorem near_difference {w : World} {u : ℝ} (hw : w.Accurate u) (h0 : 0 ≤ u) (hu : u < 1) {k N : ℕ} {rc rc' wf wf' d d' : List ℝ}
    (hr : NearL u (fun _ => k) rc rc') (hp : NearL u (fun _ => k) wf wf') (hd : d.length = d'.length) (hd' : ∀ i, d.getD i 0 = d'.getD i 0) :
    Both (fun a b : List ℝ => a.length = b.length ∧ ((∀ i, rc'.getD i 0 ≤ 1) → (∀ i, wf'.getD i 0 ≤ 1) →
        ∀ i, |a.getD i 0 - b.getD i 0| ≤ slack u k))
      (findDifferenceProfile (α := Rn w) d rc wf N) (findDifferenceProfile d' rc' wf' N) := by
  unfold findDifferenceProfile
  refine Both.forN (T := fun _ (a b : List ℝ) => a.length = b.length ∧ ((∀ i, rc'.getD i 0 ≤ 1) → (∀ i, wf'.getD i 0 ≤ 1) →
        ∀ i, |a.getD i 0 - b.getD i 0| ≤ slack u k)) ⟨hd, fun _ _ i => by rw [hd' i, sub_self, abs_zero]; exact slack_nonneg h0 hu k⟩ ?_
  rintro i _ a b ⟨hab, hab'⟩
  have get : ∀ {x y : List ℝ}, NearL u (fun _ => k) x y → Both (fun s t : ℝ => Near u k s t ∧ t = y.getD i 0) (Verif.rd x (i : Int)) (Verif.rd y (i : Int)) := by
    intro x y h
    by_cases hi : i < x.length
    · have e : ∀ c : List ℝ, i < c.length → Verif.rd c (i : Int) = .ok (c.getD i 0) := by
        intro c hc
        unfold Verif.rd
        rw [List.getD_eq_getElem?_getD]
        simp [List.getElem?_eq_getElem hc]
      rw [e x hi, e y (h.1 ▸ hi)]
      exact ⟨h.2 i, rfl⟩
    · have e : ∀ c : List ℝ, c.length = x.length → Verif.rd c (i : Int) = .error .oob := by
        intro c hc
        unfold Verif.rd
        have : c[i]? = none := List.getElem?_eq_none (by omega)
        simp [this]
      rw [e x rfl, e y h.1.symm]
      exact rfl
  refine Both.bind (get hp) fun (p : ℝ) (p' : ℝ) hpp => ?_
  refine Both.bind (get hr) fun (r : ℝ) (r' : ℝ) hrr => ?_
  by_cases hi : i < a.length
  · have e1 : ∀ z : ℝ, Verif.upd a (i : Int) z = .ok (a.set i z) := fun z => by unfold Verif.upd; simp [hi]
    have e2 : ∀ z : ℝ, Verif.upd b (i : Int) z = .ok (b.set i z) := fun z => by unfold Verif.upd; simp [hab ▸ hi]
    have hb : Both (fun a b : List ℝ => a.length = b.length ∧ ((∀ i, rc'.getD i 0 ≤ 1) → (∀ i, wf'.getD i 0 ≤ 1) →
        ∀ i, |a.getD i 0 - b.getD i 0| ≤ slack u k)) (Verif.upd a (i : Int) (w.rnd (p - r))) (Verif.upd b (i : Int) (p' - r')) := by
      rw [e1, e2]
      refine ⟨by simp [hab], fun q1 q2 j => ?_⟩
      by_cases hj : j = i
      · subst hj
        rw [List.getD_eq_getElem?_getD, List.getD_eq_getElem?_getD, List.getElem?_set_self hi, List.getElem?_set_self (hab ▸ hi)]
        exact near_sub hw h0 hu hpp.1 hrr.1 (hpp.2.trans_le (q2 _)) (hrr.2.trans_le (q1 _))
      · rw [List.getD_eq_getElem?_getD, List.getD_eq_getElem?_getD, List.getElem?_set_ne (Ne.symm hj), List.getElem?_set_ne (Ne.symm hj),
          ← List.getD_eq_getElem?_getD, ← List.getD_eq_getElem?_getD]
        exact hab' q1 q2 j
    exact hb
  · have e1 : ∀ (c : List ℝ) (z : ℝ), c.length = a.length → Verif.upd c (i : Int) z = .error .oob := fun c z hc => by
      unfold Verif.upd
      have : ¬ i < c.length := by omega
      simp [this]
    have hb : Both (fun a b : List ℝ => a.length = b.length ∧ ((∀ i, rc'.getD i 0 ≤ 1) → (∀ i, wf'.getD i 0 ≤ 1) →
        ∀ i, |a.getD i 0 - b.getD i 0| ≤ slack u k)) (Verif.upd a (i : Int) (w.rnd (p - r))) (Verif.upd b (i : Int) (p' - r')) := by
      rw [e1 a _ rfl, e1 b _ hab.symm]; exact rfl
    exact hb

/-- the run without iterations -/
theorem near_reconstruct {w : World} {u : ℝ} (hw : w.Accurate u) (h0 : 0 ≤ u) (hu : u < 1) {m n P nb : ℕ} {x : ℕ → ℕ → ℕ}
    (hx : InRange n P nb x) {wf wf' : List ℝ} (hp : NearL u (fun _ => m) wf wf') :
    Both (fun (s : RState ℝ) (t : RState ℝ) => NearL u (fun _ => m + P) s.weights t.weights ∧
        NearL u (fun _ => 2 * (m + P + n) + nb + 1) s.flatRec t.flatRec ∧ ∃ d e, s.discr = [d] ∧ t.discr = [e] ∧
          ((∀ i, t.flatRec.getD i 0 ≤ 1) → (∀ i, wf'.getD i 0 ≤ 1) →
            NearShift u (P * nb + 4) (slack u (2 * (m + P + n) + nb + 1)) d e))
      (reconstruct (α := Rn w) w.sqrt (xbuf n P x) wf 0 nb n P).2 (reconstruct Real.sqrt (xbuf n P x) wf' 0 nb n P).2 := by
  have hz : ∀ N k, NearL u k (tab N fun _ => (0 : ℝ)) (tab N fun _ => (0 : ℝ)) := fun N k => NearL.refl h0 hu fun i => by
    rw [List.getD_eq_getElem?_getD, getElem?_tab]; split <;> simp
  unfold reconstruct
  refine Both.of_eq (reconstructOn_result (α := Rn w) _ _ _ _ _ _ _ _) (reconstructOn_result (α := ℝ) _ _ _ _ _ _ _ _) ?_
  refine Both.bind (near_reciprocal hw h0 hu (hz _ _)) fun r r' _ => ?_
  rw [createFlatPoints_ok]
  simp only [bind_ok]
  refine Both.bind (near_firstStep hw h0 hu hp (hz _ _)) fun a b hab => ?_
  simp only [forN_zero, bind_ok]
  unfold finalStep
  have hfp : ∀ i j v, i < n → j < P → Verif.rd (fpbuf n P nb x) ((i * P + j : ℕ) : Int) = .ok v → v.toNat / nb = j := by
    intro i j v hi hj hv
    unfold fpbuf at hv
    rw [rd_flat _ hi hj rfl] at hv
    cases hv
    have h1 := hx i hi j hj
    have e : ((x i j : Int) + ((nb * j : ℕ) : Int)).toNat = x i j + nb * j := by omega
    rw [e, Nat.add_mul_div_left _ _ (by omega), Nat.div_eq_of_lt h1, zero_add]
  refine Both.bind (near_project hw h0 hu (nb := nb) hab hfp (hz _ _)) fun rc rc' hrc => ?_
  refine Both.bind (near_normalize hw h0 hu hrc) fun rc rc' hrc => ?_
  refine Both.bind (near_difference hw h0 hu hrc (hp.mono h0 hu fun _ _ => by omega) rfl fun _ => rfl) fun d d' hd => ?_
  refine Both.bind ((near_discrepancy h0 hu hw d P nb).trans (disc_close hd.1 P nb)) fun e e' he => ?_
  obtain ⟨c, hc, hc'⟩ := he
  have e1 : ∀ v : ℝ, Verif.upd (tab (0 + 1) fun _ => (0 : ℝ)) ((0 : ℕ) : Int) v = .ok [v] := fun v => by simp [Verif.upd, tab]
  refine Both.bind (R := fun a b : List ℝ => a = [e] ∧ b = [e']) (Both.of_eq (e1 e) (e1 e') ⟨rfl, rfl⟩) fun D D' hD => ?_
  refine Both.pure ⟨hab, hrc, e, e', hD.1, hD.2, fun q1 q2 => ?_⟩
  have h1 := abs_le.mp (hc' _ (slack_nonneg h0 hu _) (hd.2 q1 q2))
  have hk : 0 ≤ (1 - u) ^ (P * nb + 4) := pow_nonneg (by linarith) _
  refine ⟨hc.nonneg, le_trans (mul_le_mul_of_nonneg_left (by linarith [h1.1, h1.2]) hk) hc.lower, hc.upper.trans (by linarith [h1.1, h1.2])⟩

end Verif.Rounded
