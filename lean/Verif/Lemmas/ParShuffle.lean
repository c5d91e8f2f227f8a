import Verif.Lemmas.ParAtomic

/-!
# Atomic updates that need not commute: the memory at the end comes from some order of the updates
-/

namespace Verif.Par
variable {A : Type} {V : A → Type} [DecidableEq A]

/-- an atomic update of a location -/
abbrev Upd (A : Type) (V : A → Type) := Σ a : A, (V a → V a)

/-- the updates of a program that reads the values of `m₀` -/
def trace (m₀ : Mem A V) : Prog A V → List (Upd A V)
  | .done => []
  | .load a k => trace m₀ (k (m₀ a))
  | .store _ _ k => trace m₀ k
  | .atomic a f k => ⟨a, f⟩ :: trace m₀ k

/-- make the updates one after the other -/
def applyAll (L : List (Upd A V)) (m : Mem A V) : Mem A V := L.foldl (fun m u => Function.update m u.1 (u.2 (m u.1))) m

theorem applyAll_ro {ro : A → Prop} {L : List (Upd A V)} (hL : ∀ u ∈ L, ¬ ro u.1) (m : Mem A V) : ∀ a, ro a → applyAll L m a = m a := by
  induction L generalizing m with
  | nil => intro a _; rfl
  | cons u L ih =>
    intro a ha
    show applyAll L _ a = m a
    rw [ih (fun v hv => hL v (by simp [hv])) _ a ha]
    exact Function.update_of_ne (fun (e : a = u.1) => hL u (by simp) (e ▸ ha)) _ _

theorem applyAll_snoc (L : List (Upd A V)) (u : Upd A V) (m : Mem A V) :
    applyAll (L ++ [u]) m = Function.update (applyAll L m) u.1 (u.2 (applyAll L m u.1)) := by
  unfold applyAll
  rw [List.foldl_append]; rfl

theorem flatMap_set_perm {β γ : Type} (f : β → List γ) {l : List β} {t : Nat} {p q : β} {c : List γ} (ht : l[t]? = some p)
    (h : f p = c ++ f q) : (l.flatMap f).Perm (c ++ (l.set t q).flatMap f) := by
  induction l generalizing t with
  | nil => simp at ht
  | cons b l ih =>
    cases t with
    | zero =>
      simp only [List.getElem?_cons_zero, Option.some.injEq] at ht
      subst ht
      simp [h]
    | succ t =>
      simp only [List.getElem?_cons_succ] at ht
      simp only [List.set_cons_succ, List.flatMap_cons]
      refine ((ih ht).append_left (f b)).trans ?_
      rw [← List.append_assoc, ← List.append_assoc]
      exact List.perm_append_comm.append_right _

theorem shuffle_reach {m₀ : Mem A V} {ro : A → Prop} {pool : List (Prog A V)} (h : ∀ p ∈ pool, AConf m₀ ro (fun _ _ => True) p)
    {s : State A V} (hr : Reach ⟨m₀, pool⟩ s) :
    ∃ L, s.mem = applyAll L m₀ ∧ (pool.flatMap (trace m₀)).Perm (L ++ s.pool.flatMap (trace m₀)) ∧ (∀ u ∈ L, ¬ ro u.1) ∧
      ∀ p ∈ s.pool, AConf m₀ ro (fun _ _ => True) p := by
  induction hr with
  | refl => exact ⟨[], rfl, by simp, by simp, h⟩
  | tail _ hs ih =>
    obtain ⟨L, hm, hp, hL, hc⟩ := ih
    cases hs with
    | @mk t m m' ps p p' ht hst =>
      dsimp only at hm hp hc ⊢
      have hcp : AConf m₀ ro (fun _ _ => True) p := hc p (List.mem_of_getElem? ht)
      cases hst with
      | load a k =>
        have ha : m a = m₀ a := by rw [hm]; exact applyAll_ro hL m₀ a hcp.1
        refine ⟨L, hm, hp.trans (List.Perm.append_left L ?_), hL, ?_⟩
        · exact flatMap_set_perm (c := []) (trace m₀) ht (by rw [ha]; rfl)
        · intro q hq
          rcases List.mem_or_eq_of_mem_set hq with hq | rfl
          · exact hc q hq
          · rw [ha]; exact hcp.2
      | store a v k => exact hcp.elim
      | atomic a f k =>
        refine ⟨L ++ [⟨a, f⟩], ?_, ?_, ?_, ?_⟩
        · rw [applyAll_snoc, ← hm]
        · refine hp.trans ?_
          rw [List.append_assoc]
          exact List.Perm.append_left L (flatMap_set_perm (c := [⟨a, f⟩]) (trace m₀) ht rfl)
        · intro u hu
          rcases List.mem_append.mp hu with hu | hu
          · exact hL u hu
          · rw [List.mem_singleton.mp hu]; exact hcp.1
        · intro q hq
          rcases List.mem_or_eq_of_mem_set hq with hq | rfl
          · exact hc q hq
          · exact hcp.2.2

/-- threads that read constant locations and make atomic updates: at the end all updates have been made, in some order -/
theorem shuffle_result {m₀ : Mem A V} {ro : A → Prop} {pool : List (Prog A V)} (h : ∀ p ∈ pool, AConf m₀ ro (fun _ _ => True) p) :
    Always ⟨m₀, pool⟩ (fun m => ∃ L, L.Perm (pool.flatMap (trace m₀)) ∧ m = applyAll L m₀) := by
  refine always_of_result fun s hr hf => ?_
  obtain ⟨L, hm, hp, _, _⟩ := shuffle_reach h hr
  refine ⟨L, ?_, hm⟩
  have e : s.pool.flatMap (trace m₀) = [] := by
    rw [List.flatMap_eq_nil_iff]
    intro p hp
    rw [hf p hp]; rfl
  rw [e, List.append_nil] at hp
  exact hp.symm

/-- an order of the images is the image of an order -/
theorem perm_of_map {β γ : Type} {f : β → γ} {L : List γ} {l : List β} (h : L.Perm (l.map f)) : ∃ l' : List β, l'.Perm l ∧ L = l'.map f := by
  induction L generalizing l with
  | nil =>
    have : l = [] := by simpa using h.symm
    exact ⟨[], by rw [this], rfl⟩
  | cons x L ih =>
    obtain ⟨a, ha, rfl⟩ := List.mem_map.mp (h.subset (List.mem_cons_self))
    obtain ⟨l1, l2, rfl⟩ := List.append_of_mem ha
    have h' : L.Perm ((l1 ++ l2).map f) := by
      have e : (List.map f (l1 ++ a :: l2)).Perm (f a :: (l1 ++ l2).map f) := by
        simp only [List.map_append, List.map_cons]
        exact List.perm_middle
      exact (h.trans e).cons_inv
    obtain ⟨l', h1, rfl⟩ := ih h'
    exact ⟨a :: l', (h1.cons a).trans List.perm_middle.symm, rfl⟩

end Verif.Par
