import Verif.Lemmas.Par

/-!
# Commuting atomic updates make a kernel deterministic
-/

set_option linter.unusedSectionVars false

namespace Verif.Par
variable {A : Type} {V : A → Type} [DecidableEq A]

/-- The program only reads locations of `ro`, which hold their initial values `m₀`, and only changes other locations, by atomic
updates from the family `upds`. -/
def AConf (m₀ : Mem A V) (ro : A → Prop) (upds : ∀ a, (V a → V a) → Prop) : Prog A V → Prop
  | .done => True
  | .load a k => ro a ∧ AConf m₀ ro upds (k (m₀ a))
  | .store _ _ _ => False
  | .atomic a f k => ¬ ro a ∧ upds a f ∧ AConf m₀ ro upds k

/-- any two updates of the same location commute -/
def Commute (upds : ∀ a, (V a → V a) → Prop) : Prop := ∀ a f g, upds a f → upds a g → ∀ v, f (g v) = g (f v)

variable {m₀ : Mem A V} {ro : A → Prop} {upds : ∀ a, (V a → V a) → Prop}

theorem aconf_seq {p q : Prog A V} (hp : AConf m₀ ro upds p) (hq : AConf m₀ ro upds q) :
    AConf m₀ ro upds (p.seq q) := by
  induction p with
  | done => exact hq
  | load a k ih => exact ⟨hp.1, ih _ hp.2⟩
  | store a v k ih => exact hp.elim
  | atomic a f k ih => exact ⟨hp.1, hp.2.1, ih hp.2.2⟩

theorem aconf_seqs {ps : List (Prog A V)} (h : ∀ p ∈ ps, AConf m₀ ro upds p) : AConf m₀ ro upds (Prog.seqs ps) := by
  induction ps with
  | nil => trivial
  | cons p ps ih => exact aconf_seq (h p (by simp)) (ih fun q hq => h q (by simp [hq]))

theorem aconf_const {q : Prog A V} {m : Mem A V} (hq : AConf m₀ ro upds q) (hm : ∀ a, ro a → m a = m₀ a) :
    ∀ a, ro a → q.run m a = m₀ a := by
  induction q generalizing m with
  | done => exact hm
  | load b k ih =>
    intro a ha
    rw [Prog.run, hm b hq.1]
    exact ih _ hq.2 hm a ha
  | store b v k ih => exact hq.elim
  | atomic b f k ih =>
    intro a ha
    rw [Prog.run]
    refine ih hq.2.2 ?_ a ha
    intro c hc
    rw [Function.update_of_ne (fun (e : c = b) => hq.1 (e ▸ hc)), hm c hc]

/-- an update made before the program may as well be made after it -/
theorem aconf_comm (hcomm : Commute upds) {q : Prog A V} {m : Mem A V} {a : A} {f : V a → V a} (ha : ¬ ro a) (hf : upds a f)
    (hq : AConf m₀ ro upds q) (hm : ∀ b, ro b → m b = m₀ b) :
    q.run (Function.update m a (f (m a))) = Function.update (q.run m) a (f (q.run m a)) := by
  induction q generalizing m with
  | done => rfl
  | load b k ih =>
    have hb : b ≠ a := fun e => ha (e ▸ hq.1)
    rw [Prog.run, Prog.run, Function.update_of_ne hb, hm b hq.1]
    exact ih _ hq.2 hm
  | store b v k ih => exact hq.elim
  | atomic b g k ih =>
    obtain ⟨hb, hg, hk⟩ := hq
    have key : Function.update (Function.update m a (f (m a))) b (g (Function.update m a (f (m a)) b))
        = Function.update (Function.update m b (g (m b))) a (f (Function.update m b (g (m b)) a)) := by
      by_cases e : b = a
      · subst e
        simp only [Function.update_self, Function.update_idem]
        rw [hcomm b g f hg hf]
      · rw [Function.update_of_ne e, Function.update_of_ne (Ne.symm e), Function.update_comm (Ne.symm e)]
    rw [Prog.run, Prog.run, key]
    refine ih hk ?_
    intro c hc
    rw [Function.update_of_ne (fun (e : c = b) => hb (e ▸ hc)), hm c hc]

structure AInv (m₀ : Mem A V) (ro : A → Prop) (upds : ∀ a, (V a → V a) → Prop) (pool₀ : List (Prog A V)) (s : State A V) :
    Prop where
  conf : ∀ p ∈ s.pool, AConf m₀ ro upds p
  const : ∀ a, ro a → s.mem a = m₀ a
  run : (Prog.seqs s.pool).run s.mem = (Prog.seqs pool₀).run m₀

theorem ainv_step (hcomm : Commute upds) {pool₀ : List (Prog A V)} {s s' : State A V} (hi : AInv m₀ ro upds pool₀ s)
    (h : Step s s') : AInv m₀ ro upds pool₀ s' := by
  cases h with
  | @mk t m m' pool p p' ht h =>
    obtain ⟨hlt, hpt⟩ := List.getElem?_eq_some_iff.mp ht
    have hsplit : pool = pool.take t ++ p :: pool.drop (t + 1) := by
      rw [← hpt, List.getElem_cons_drop, List.take_append_drop]
    have hset : pool.set t p' = pool.take t ++ p' :: pool.drop (t + 1) := List.set_eq_take_append_cons_drop.trans (if_pos hlt)
    have hp : AConf m₀ ro upds p := hi.conf p (List.mem_of_getElem? ht)
    have hl : AConf m₀ ro upds (Prog.seqs (pool.take t)) :=
      aconf_seqs fun q hq => hi.conf q (List.mem_of_mem_take hq)
    have hconst : ∀ a, ro a → m a = m₀ a := hi.const
    have hrun : (Prog.seqs (pool.take t ++ p :: pool.drop (t + 1))).run m = (Prog.seqs pool₀).run m₀ := by
      rw [← hsplit]; exact hi.run
    rw [Prog.run_seqs_append, Prog.run_seqs_cons] at hrun
    have hX := aconf_const hl hconst
    have hp' : AConf m₀ ro upds p' := by
      cases h with
      | load a k => rw [hconst a hp.1]; exact hp.2
      | store a v k => exact hp.elim
      | atomic a f k => exact hp.2.2
    refine ⟨?_, ?_, ?_⟩
    · intro q hq
      show AConf m₀ ro upds q
      rcases List.mem_or_eq_of_mem_set hq with hq | rfl
      · exact hi.conf q hq
      · exact hp'
    · intro a ha
      show m' a = m₀ a
      cases h with
      | load b k => exact hconst a ha
      | store b v k => exact hp.elim
      | atomic b f k => rw [Function.update_of_ne (fun (e : a = b) => hp.1 (e ▸ ha)), hconst a ha]
    · show (Prog.seqs (pool.set t p')).run m' = _
      rw [hset, Prog.run_seqs_append, Prog.run_seqs_cons, ← hrun]
      congr 1
      cases h with
      | load a k =>
        rw [Prog.run, hX a hp.1, hconst a hp.1]
      | store a v k => exact hp.elim
      | atomic a f k =>
        rw [Prog.run, aconf_comm hcomm hp.1 hp.2.1 hl hconst]

theorem run_seqs_done {ps : List (Prog A V)} (h : ∀ p ∈ ps, p = Prog.done) (m : Mem A V) : (Prog.seqs ps).run m = m := by
  induction ps generalizing m with
  | nil => rfl
  | cons p ps ih =>
    rw [Prog.run_seqs_cons, h p (by simp), ih fun q hq => h q (by simp [hq])]
    rfl

/-- Threads that communicate only through commuting atomic updates end, under every interleaving, with the memory of the
threads run one after the other. -/
theorem atomic_result (hcomm : Commute upds) {pool : List (Prog A V)} (hc : ∀ p ∈ pool, AConf m₀ ro upds p) :
    Always ⟨m₀, pool⟩ (fun m => m = (Prog.seqs pool).run m₀) := by
  apply always_of_result
  intro s' hr hf
  have : AInv m₀ ro upds pool s' := by
    clear hf
    induction hr with
    | refl => exact ⟨hc, fun _ _ => rfl, rfl⟩
    | tail _ h ih => exact ainv_step hcomm ih h
  have h2 := this.run
  rwa [run_seqs_done hf] at h2

end Verif.Par
