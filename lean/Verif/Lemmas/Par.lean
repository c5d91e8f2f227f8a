import Verif.Core.Par
import Mathlib.Order.WellFounded

/-!
# Disjoint footprints make a parallel loop deterministic
-/

set_option linter.unusedSectionVars false

namespace Verif.Par
variable {A : Type} {V : A → Type} [DecidableEq A]

namespace Prog

theorem run_seq (p q : Prog A V) (m : Mem A V) : (p.seq q).run m = q.run (p.run m) := by
  induction p generalizing m with
  | done => rfl
  | load a k ih => exact ih _ m
  | store a v k ih => exact ih _
  | atomic a f k ih => exact ih _

theorem run_seqs_nil (m : Mem A V) : (seqs []).run m = m := rfl

theorem run_seqs_cons (p : Prog A V) (ps : List (Prog A V)) (m : Mem A V) :
    (seqs (p :: ps)).run m = (seqs ps).run (p.run m) := run_seq _ _ _

theorem run_seqs_append (ps qs : List (Prog A V)) (m : Mem A V) :
    (seqs (ps ++ qs)).run m = (seqs qs).run ((seqs ps).run m) := by
  induction ps generalizing m with
  | nil => rfl
  | cons p ps ih => rw [List.cons_append, run_seqs_cons, ih, run_seqs_cons]

theorem run_for_zero (body : Nat → Prog A V) (m : Mem A V) : (for' 0 body).run m = m := rfl

theorem run_for_succ (n : Nat) (body : Nat → Prog A V) (m : Mem A V) :
    (for' (n + 1) body).run m = (body n).run ((for' n body).run m) := by
  unfold for' tab
  rw [List.range_succ, List.map_append, run_seqs_append, List.map_singleton, run_seqs_cons, run_seqs_nil]

end Prog

theorem serialFor_zero (body : Nat → Prog A V) (m : Mem A V) : serialFor 0 body m = m := rfl

theorem serialFor_succ (n : Nat) (body : Nat → Prog A V) (m : Mem A V) :
    serialFor (n + 1) body m = (body n).run (serialFor n body m) := Prog.run_for_succ n body m

section conf
variable {m₀ : Mem A V} {ro own : A → Prop}

theorem conf_seq {p q : Prog A V} (hp : Conf m₀ ro own p) (hq : Conf m₀ ro own q) : Conf m₀ ro own (p.seq q) := by
  induction p with
  | done => exact hq
  | load a k ih =>
    rcases hp with ⟨h1, h2⟩ | ⟨h1, h2⟩
    · exact Or.inl ⟨h1, ih _ h2⟩
    · exact Or.inr ⟨h1, fun v => ih v (h2 v)⟩
  | store a v k ih => exact ⟨hp.1, ih hp.2⟩
  | atomic a f k ih => exact ⟨hp.1, ih hp.2⟩

theorem conf_seqs {ps : List (Prog A V)} (h : ∀ p ∈ ps, Conf m₀ ro own p) : Conf m₀ ro own (Prog.seqs ps) := by
  induction ps with
  | nil => trivial
  | cons p ps ih =>
    exact conf_seq (h p (by simp)) (ih fun q hq => h q (by simp [hq]))

theorem conf_for {n : Nat} {body : Nat → Prog A V} (h : ∀ i, i < n → Conf m₀ ro own (body i)) :
    Conf m₀ ro own (Prog.for' n body) := by
  apply conf_seqs
  intro p hp
  simp only [tab, List.mem_map, List.mem_range] at hp
  obtain ⟨i, hi, rfl⟩ := hp
  exact h i hi

theorem conf_mono {own' : A → Prop} {p : Prog A V} (hp : Conf m₀ ro own p) (h : ∀ a, own a → own' a) :
    Conf m₀ ro own' p := by
  induction p with
  | done => trivial
  | load a k ih =>
    rcases hp with ⟨h1, h2⟩ | ⟨h1, h2⟩
    · exact Or.inl ⟨h1, ih _ h2⟩
    · exact Or.inr ⟨h _ h1, fun v => ih v (h2 v)⟩
  | store a v k ih => exact ⟨h _ hp.1, ih hp.2⟩
  | atomic a f k ih => exact ⟨h _ hp.1, ih hp.2⟩

/-- A program changes only its own locations. -/
theorem run_outside {p : Prog A V} {m : Mem A V} (hp : Conf m₀ ro own p) (hd : ∀ a, ro a → ¬ own a)
    (hm : ∀ a, ro a → m a = m₀ a) {a : A} (ha : ¬ own a) : p.run m a = m a := by
  induction p generalizing m with
  | done => rfl
  | load b k ih =>
    rcases hp with ⟨h1, h2⟩ | ⟨h1, h2⟩
    · have := ih (m b) (m := m) (by rw [hm b h1]; exact h2) hm
      exact this
    · exact ih (m b) (h2 _) hm
  | store b v k ih =>
    have hne : a ≠ b := fun h => ha (h ▸ hp.1)
    rw [Prog.run, ih hp.2, Function.update_of_ne hne]
    intro c hc
    have : c ≠ b := fun h => hd c hc (h ▸ hp.1)
    rw [Function.update_of_ne this, hm c hc]
  | atomic b f k ih =>
    have hne : a ≠ b := fun h => ha (h ▸ hp.1)
    rw [Prog.run, ih hp.2, Function.update_of_ne hne]
    intro c hc
    have : c ≠ b := fun h => hd c hc (h ▸ hp.1)
    rw [Function.update_of_ne this, hm c hc]

/-- What a program does to its own locations depends on nothing but them and the shared constants. -/
theorem run_congr {p : Prog A V} {m m' : Mem A V} (hp : Conf m₀ ro own p) (hd : ∀ a, ro a → ¬ own a)
    (hm : ∀ a, ro a → m a = m₀ a) (hm' : ∀ a, ro a → m' a = m₀ a) (h : ∀ a, own a → m a = m' a) {a : A}
    (ha : own a) : p.run m a = p.run m' a := by
  induction p generalizing m m' with
  | done => exact h a ha
  | load b k ih =>
    rcases hp with ⟨h1, h2⟩ | ⟨h1, h2⟩
    · have e1 : Prog.run (.load b k) m = (k (m₀ b)).run m := by rw [Prog.run, hm b h1]
      have e2 : Prog.run (.load b k) m' = (k (m₀ b)).run m' := by rw [Prog.run, hm' b h1]
      rw [e1, e2]
      exact ih _ h2 hm hm' h
    · have e2 : Prog.run (.load b k) m' = (k (m b)).run m' := by rw [Prog.run, h b h1]
      rw [e2]
      exact ih (m b) (h2 _) hm hm' h
  | store b v k ih =>
    have hc : ∀ c, ro c → c ≠ b := fun c hc h => hd c hc (h ▸ hp.1)
    apply ih hp.2
    · intro c hr; rw [Function.update_of_ne (hc c hr), hm c hr]
    · intro c hr; rw [Function.update_of_ne (hc c hr), hm' c hr]
    · intro c ho
      by_cases e : c = b
      · subst e; simp
      · rw [Function.update_of_ne e, Function.update_of_ne e, h c ho]
  | atomic b f k ih =>
    have hc : ∀ c, ro c → c ≠ b := fun c hc h => hd c hc (h ▸ hp.1)
    apply ih hp.2
    · intro c hr; rw [Function.update_of_ne (hc c hr), hm c hr]
    · intro c hr; rw [Function.update_of_ne (hc c hr), hm' c hr]
    · intro c ho
      by_cases e : c = b
      · subst e; simp [h c hp.1]
      · rw [Function.update_of_ne e, Function.update_of_ne e, h c ho]

end conf

theorem conf_true {m₀ : Mem A V} (p : Prog A V) : Conf m₀ (fun _ => False) (fun _ => True) p := by
  induction p with
  | done => trivial
  | load a k ih => exact Or.inr ⟨trivial, ih⟩
  | store a v k ih => exact ⟨trivial, ih⟩
  | atomic a f k ih => exact ⟨trivial, ih⟩

/-! ## Termination and progress: every pool -/

/-- thread steps, forgetting the memory -/
inductive Prog.Next : Prog A V → Prog A V → Prop
  | load (a : A) (k : V a → Prog A V) (v : V a) : Next (k v) (.load a k)
  | store (a : A) (v : V a) (k : Prog A V) : Next k (.store a v k)
  | atomic (a : A) (f : V a → V a) (k : Prog A V) : Next k (.atomic a f k)

theorem Prog.next_acc (p : Prog A V) : Acc Prog.Next p := by
  induction p with
  | done => exact ⟨_, fun _ h => by cases h⟩
  | load a k ih => exact ⟨_, fun _ h => by cases h; exact ih _⟩
  | store a v k ih => exact ⟨_, fun _ h => by cases h; exact ih⟩
  | atomic a f k ih => exact ⟨_, fun _ h => by cases h; exact ih⟩

theorem Prog.Step.next {m m' : Mem A V} {p p' : Prog A V} (h : Prog.Step m p m' p') : Prog.Next p' p := by
  cases h <;> constructor

/-- some member of the list makes a step -/
def PoolNext (qs ps : List (Prog A V)) : Prop := ∃ t p p', ps[t]? = some p ∧ Prog.Next p' p ∧ qs = ps.set t p'

theorem poolNext_acc (ps : List (Prog A V)) : Acc PoolNext ps := by
  induction ps with
  | nil => exact ⟨_, fun qs ⟨t, p, p', h, _⟩ => by simp at h⟩
  | cons p ps ih =>
    induction Prog.next_acc p generalizing ps with
    | intro p _ ihp =>
      induction ih with
      | intro ps hps ihps =>
        refine ⟨_, ?_⟩
        rintro qs ⟨t, r, r', h, hn, rfl⟩
        cases t with
        | zero =>
          simp only [List.getElem?_cons_zero, Option.some.injEq] at h
          subst h
          simp only [List.set_cons_zero]
          exact ihp _ hn _ ⟨_, hps⟩
        | succ t =>
          simp only [List.getElem?_cons_succ] at h
          simp only [List.set_cons_succ]
          exact ihps _ ⟨t, r, r', h, hn, rfl⟩

theorem terminates (s : State A V) : Acc (fun b a : State A V => Step a b) s := by
  have h : ∀ ps : List (Prog A V), Acc PoolNext ps → ∀ m : Mem A V, Acc (fun b a : State A V => Step a b) ⟨m, ps⟩ := by
    intro ps hps
    induction hps with
    | intro ps _ ih =>
      intro m
      refine ⟨_, ?_⟩
      rintro ⟨m', qs⟩ h
      cases h with
      | mk t ht h => exact ih _ ⟨t, _, _, ht, h.next, rfl⟩ _
  exact h s.pool (poolNext_acc _) s.mem

theorem progress (s : State A V) : Final s ∨ ∃ s', Step s s' := by
  by_cases h : Final s
  · exact Or.inl h
  · right
    unfold Final at h
    push Not at h
    obtain ⟨p, hp, hne⟩ := h
    obtain ⟨t, ht⟩ := List.mem_iff_getElem?.mp hp
    obtain ⟨m, pool⟩ := s
    cases p with
    | done => exact absurd rfl hne
    | load a k => exact ⟨_, Step.mk t ht (Prog.Step.load m a k)⟩
    | store a v k => exact ⟨_, Step.mk t ht (Prog.Step.store m a v k)⟩
    | atomic a f k => exact ⟨_, Step.mk t ht (Prog.Step.atomic m a f k)⟩

theorem always_of_result {s : State A V} {R : Mem A V → Prop}
    (h : ∀ s', Reach s s' → Final s' → R s'.mem) : Always s R :=
  ⟨terminates s, fun s' _ => progress s', h⟩

/-! ## Determinism -/

section det
variable {m₀ : Mem A V} {ro : A → Prop} {own : Nat → A → Prop}

theorem step_conf {ow : A → Prop} {m m' : Mem A V} {p p' : Prog A V} (h : Prog.Step m p m' p')
    (hp : Conf m₀ ro ow p) (hm : ∀ a, ro a → m a = m₀ a) : Conf m₀ ro ow p' := by
  cases h with
  | load a k =>
    rcases hp with ⟨h1, h2⟩ | ⟨_, h2⟩
    · rw [hm a h1]; exact h2
    · exact h2 _
  | store a v k => exact hp.2
  | atomic a f k => exact hp.2

theorem step_run {m m' : Mem A V} {p p' : Prog A V} (h : Prog.Step m p m' p') : p'.run m' = p.run m := by
  cases h <;> rfl

theorem step_outside {ow : A → Prop} {m m' : Mem A V} {p p' : Prog A V} (h : Prog.Step m p m' p')
    (hp : Conf m₀ ro ow p) {a : A} (ha : ¬ ow a) : m' a = m a := by
  cases h with
  | load b k => rfl
  | store b v k => exact Function.update_of_ne (fun (e : a = b) => ha (e ▸ hp.1)) _ _
  | atomic b f k => exact Function.update_of_ne (fun (e : a = b) => ha (e ▸ hp.1)) _ _

/-- the invariant of every interleaving of threads with disjoint footprints -/
structure Inv (m₀ : Mem A V) (ro : A → Prop) (own : Nat → A → Prop) (pool₀ : List (Prog A V)) (s : State A V) : Prop where
  len : s.pool.length = pool₀.length
  const : ∀ a, ro a → s.mem a = m₀ a
  conf : ∀ t p, s.pool[t]? = some p → Conf m₀ ro (own t) p
  agree : ∀ t p p₀, s.pool[t]? = some p → pool₀[t]? = some p₀ → ∀ a, own t a → p.run s.mem a = p₀.run m₀ a
  rest : ∀ a, (∀ t, t < pool₀.length → ¬ own t a) → s.mem a = m₀ a

theorem inv_step {pool₀ : List (Prog A V)} (hd : ∀ t a, ro a → ¬ own t a)
    (hdis : ∀ t u a, t < pool₀.length → u < pool₀.length → t ≠ u → own t a → ¬ own u a)
    {s s' : State A V} (hi : Inv m₀ ro own pool₀ s) (h : Step s s') : Inv m₀ ro own pool₀ s' := by
  cases h with
  | @mk t m m' pool p p' ht h =>
    have hlt : t < pool.length := (List.getElem?_eq_some_iff.mp ht).1
    have hlen : pool.length = pool₀.length := hi.len
    have hc := hi.conf t p ht
    have hro : ∀ a, ro a → m' a = m₀ a := fun a ha => by
      rw [step_outside h hc (hd t a ha)]; exact hi.const a ha
    refine ⟨by simpa using hi.len, hro, ?_, ?_, ?_⟩
    · intro u q hu
      simp only [List.getElem?_set] at hu
      by_cases e : t = u
      · subst e
        simp only [hlt, if_true, Option.some.injEq] at hu
        subst hu
        exact step_conf h hc hi.const
      · rw [if_neg e] at hu
        exact hi.conf u q hu
    · intro u q q₀ hu hu₀ a ha
      simp only [List.getElem?_set] at hu
      by_cases e : t = u
      · subst e
        simp only [hlt, if_true, Option.some.injEq] at hu
        subst hu
        show p'.run m' a = _
        rw [step_run h]
        exact hi.agree t p q₀ ht hu₀ a ha
      · rw [if_neg e] at hu
        have hul : u < pool₀.length := (List.getElem?_eq_some_iff.mp hu₀).1
        rw [← hi.agree u q q₀ hu hu₀ a ha]
        refine run_congr (hi.conf u q hu) (hd u) hro hi.const ?_ ha
        intro b hb
        exact step_outside h hc (hdis u t b hul (by omega) (Ne.symm e) hb)
    · intro a ha
      show m' a = _
      rw [step_outside h hc (ha t (by omega))]
      exact hi.rest a ha

theorem inv_reach {pool₀ : List (Prog A V)} (hd : ∀ t a, ro a → ¬ own t a)
    (hdis : ∀ t u a, t < pool₀.length → u < pool₀.length → t ≠ u → own t a → ¬ own u a)
    (hc : ∀ t p, pool₀[t]? = some p → Conf m₀ ro (own t) p) {s' : State A V} (hr : Reach ⟨m₀, pool₀⟩ s') :
    Inv m₀ ro own pool₀ s' := by
  induction hr with
  | refl =>
    exact ⟨rfl, fun _ _ => rfl, hc, fun t p p₀ h h' a _ => by
      simp only at h; rw [h] at h'; cases h'; rfl, fun _ _ => rfl⟩
  | tail _ h ih => exact inv_step hd hdis ih h

/-- Threads with disjoint footprints: at the barrier every location holds what its owner alone would have computed. -/
theorem pool_result {pool₀ : List (Prog A V)} (hd : ∀ t a, ro a → ¬ own t a)
    (hdis : ∀ t u a, t < pool₀.length → u < pool₀.length → t ≠ u → own t a → ¬ own u a)
    (hc : ∀ t p, pool₀[t]? = some p → Conf m₀ ro (own t) p) {s' : State A V} (hr : Reach ⟨m₀, pool₀⟩ s')
    (hf : Final s') :
    (∀ t p, pool₀[t]? = some p → ∀ a, own t a → s'.mem a = p.run m₀ a) ∧
    (∀ a, (∀ t, t < pool₀.length → ¬ own t a) → s'.mem a = m₀ a) := by
  have hi := inv_reach hd hdis hc hr
  refine ⟨fun t p ht a ha => ?_, hi.rest⟩
  have hlt : t < s'.pool.length := by rw [hi.len]; exact (List.getElem?_eq_some_iff.mp ht).1
  have hq : s'.pool[t]? = some s'.pool[t] := List.getElem?_eq_getElem hlt
  have hdone : s'.pool[t] = Prog.done := hf _ (List.getElem_mem hlt)
  have := hi.agree t _ p hq ht a ha
  rw [hdone] at this
  exact this

/-- Iterations with disjoint footprints run one after the other, in any order and any selection. -/
theorem seqs_result {n : Nat} {body : Nat → Prog A V} (hd : ∀ i a, ro a → ¬ own i a)
    (hdis : ∀ i j a, i < n → j < n → i ≠ j → own i a → ¬ own j a)
    (hc : ∀ i, i < n → Conf m₀ ro (own i) (body i)) (l : List Nat) (hl : ∀ i ∈ l, i < n) (hnd : l.Nodup)
    {m : Mem A V} (hm : ∀ a, ro a → m a = m₀ a) :
    (∀ i ∈ l, ∀ a, own i a → (Prog.seqs (l.map body)).run m a = (body i).run m a) ∧
    (∀ a, (∀ i ∈ l, ¬ own i a) → (Prog.seqs (l.map body)).run m a = m a) := by
  induction l generalizing m with
  | nil => exact ⟨fun i h => by simp at h, fun _ _ => rfl⟩
  | cons i l ih =>
    have hi : i < n := hl i (by simp)
    have hl' : ∀ j ∈ l, j < n := fun j hj => hl j (by simp [hj])
    have hnd' := List.nodup_cons.mp hnd
    have hm1 : ∀ a, ro a → (body i).run m a = m₀ a := fun a ha => by
      rw [run_outside (hc i hi) (hd i) hm (hd i a ha), hm a ha]
    obtain ⟨ih1, ih2⟩ := ih hl' hnd'.2 hm1
    rw [List.map_cons]
    simp only [Prog.run_seqs_cons]
    constructor
    · intro j hj a ha
      rcases List.mem_cons.mp hj with rfl | hj
      · rw [ih2 a]
        intro k hk
        exact hdis j k a hi (hl' k hk) (fun e => hnd'.1 (e ▸ hk)) ha
      · have hne : i ≠ j := fun e => hnd'.1 (e ▸ hj)
        rw [ih1 j hj a ha]
        refine run_congr (hc j (hl' j hj)) (hd j) hm1 hm ?_ ha
        intro b hb
        exact run_outside (hc i hi) (hd i) hm (hdis j i b (hl' j hj) hi (Ne.symm hne) hb)
    · intro a ha
      rw [ih2 a (fun j hj => ha j (by simp [hj])), run_outside (hc i hi) (hd i) hm (ha i (by simp))]

/-- A parallel loop whose iterations have disjoint footprints leaves exactly the memory of the serial loop. -/
theorem parallelFor_result {T n : Nat} {asg : Nat → Nat} {body : Nat → Prog A V} (hasg : Assigned T asg n)
    (hd : ∀ i a, ro a → ¬ own i a)
    (hdis : ∀ i j a, i < n → j < n → i ≠ j → own i a → ¬ own j a)
    (hc : ∀ i, i < n → Conf m₀ ro (own i) (body i)) :
    Always ⟨m₀, parallelFor T asg n body⟩ (fun m => m = serialFor n body m₀) := by
  apply always_of_result
  intro s' hr hf
  let own' : Nat → A → Prop := fun t a => ∃ i, i < n ∧ asg i = t ∧ own i a
  have hget : ∀ t p, (parallelFor T asg n body)[t]? = some p →
      t < T ∧ p = Prog.seqs (((List.range n).filter fun i => asg i = t).map body) := by
    intro t p h
    unfold parallelFor at h
    rw [getElem?_tab] at h
    split at h
    · rename_i h'; exact ⟨h', by cases h; rfl⟩
    · cases h
  have hlen : (parallelFor T asg n body).length = T := by simp [parallelFor]
  have key := pool_result (m₀ := m₀) (ro := ro) (own := own') (pool₀ := parallelFor T asg n body)
    (fun t a ha => by rintro ⟨i, _, _, h⟩; exact hd i a ha h)
    (by
      rintro t u a _ _ hne ⟨i, hi, rfl, h1⟩ ⟨j, hj, rfl, h2⟩
      exact hdis i j a hi hj (fun e => hne (by rw [e])) h1 h2)
    (by
      intro t p h
      obtain ⟨_, rfl⟩ := hget t p h
      apply conf_seqs
      intro q hq
      simp only [List.mem_map, List.mem_filter, List.mem_range, decide_eq_true_eq] at hq
      obtain ⟨i, ⟨hi, hit⟩, rfl⟩ := hq
      exact conf_mono (hc i hi) fun a ha => ⟨i, hi, hit, ha⟩)
    hr hf
  obtain ⟨k1, k2⟩ := key
  obtain ⟨s1, s2⟩ := seqs_result hd hdis hc (List.range n) (fun i hi => by simpa using hi) List.nodup_range
    (m := m₀) (fun _ _ => rfl)
  funext a
  by_cases h : ∃ i, i < n ∧ own i a
  · obtain ⟨i, hi, ha⟩ := h
    have hT := hasg i hi
    have ht : (parallelFor T asg n body)[asg i]? =
        some (Prog.seqs (((List.range n).filter fun j => asg j = asg i).map body)) := by
      unfold parallelFor
      rw [getElem?_tab, if_pos hT]
    rw [k1 _ _ ht a ⟨i, hi, rfl, ha⟩]
    obtain ⟨t1, _⟩ := seqs_result hd hdis hc ((List.range n).filter fun j => asg j = asg i)
      (fun j hj => by simpa using (List.mem_filter.mp hj).1) (List.nodup_range.filter _) (m := m₀) (fun _ _ => rfl)
    rw [t1 i (by simp [hi]) a ha]
    exact (s1 i (by simpa using hi) a ha).symm
  · push Not at h
    rw [k2 a (by rintro t _ ⟨i, hi, _, ha⟩; exact h i hi ha)]
    exact (s2 a (fun i hi => h i (by simpa using hi))).symm

/-- With one thread every loop, racy or not, is the serial loop. -/
theorem parallelFor_one (n : Nat) (body : Nat → Prog A V) :
    Always ⟨m₀, parallelFor 1 (fun _ => 0) n body⟩ (fun m => m = serialFor n body m₀) := by
  apply always_of_result
  intro s' hr hf
  have hpool : parallelFor 1 (fun _ => 0) n body = [Prog.for' n body] := by
    simp [parallelFor, tab, Prog.for']
  rw [hpool] at hr
  have key := pool_result (m₀ := m₀) (ro := fun _ => False) (own := fun _ _ => True)
    (pool₀ := [Prog.for' n body]) (fun _ _ h => h.elim) (by
      intro t u a ht hu hne
      simp at ht hu; omega)
    (by
      intro t p _
      exact conf_true p) hr hf
  funext a
  exact key.1 0 _ rfl a trivial

/-! ## Executing a given schedule -/

theorem exec_reach (sched : List Nat) (m : Mem A V) (pool : List (Prog A V)) :
    Reach ⟨m, pool⟩ ⟨(exec sched m pool).1, (exec sched m pool).2⟩ := by
  induction sched generalizing m pool with
  | nil => exact Relation.ReflTransGen.refl
  | cons t ts ih =>
    unfold exec
    split
    · rename_i a k h; exact Relation.ReflTransGen.head (Step.mk t h (Prog.Step.load m a k)) (ih _ _)
    · rename_i a v k h; exact Relation.ReflTransGen.head (Step.mk t h (Prog.Step.store m a v k)) (ih _ _)
    · rename_i a f k h; exact Relation.ReflTransGen.head (Step.mk t h (Prog.Step.atomic m a f k)) (ih _ _)
    · exact ih _ _
    · exact ih _ _

theorem final_of_isDone {s : State A V} (h : s.pool.all Prog.isDone = true) : Final s := by
  intro p hp
  have := List.all_eq_true.mp h p hp
  cases p <;> simp [Prog.isDone] at this ⊢

end det
end Verif.Par
