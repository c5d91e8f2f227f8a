import Verif.Props.Bind

/-!
# Theorems added after unnoticed wrong programs, part 6
-/

namespace Verif.Props
open Verif.Bind Verif.Spec

variable {α : Type}

theorem try_defaults {E : Env α} {cv : Bool} {h : Heap α} {o : Overload Kad α} {args : List (PyVal α)} {extra : List (PyVal α)}
    (hd : o.defaults = [.bool false, .none])
    (he : args.length + extra.length = o.params.length → extra = o.defaults.drop (2 - extra.length))
    (hl : extra.length ≤ 2)
    (hf : args.length + extra.length = o.params.length ∨ args.length + 2 < o.params.length ∧ args.length + extra.length + 2 < o.params.length
      ∨ o.params.length < args.length) :
    tryOverload E cv h o args = tryOverload E cv h o (args ++ extra) := by
  unfold tryOverload
  have h2 : o.defaults.length = 2 := by rw [hd]; rfl
  rw [List.length_append, h2]
  rcases hf with hf | hf | hf
  · rw [if_pos (by omega), if_pos (by omega)]
    have e1 : args.length + 2 - o.params.length = 2 - extra.length := by omega
    have e2 : args.length + extra.length + 2 - o.params.length = 2 := by omega
    rw [e1, e2, ← he hf, show o.defaults.drop 2 = [] by rw [hd]; rfl, List.append_nil]
  · rw [if_neg (by omega), if_neg (by omega)]
  · rw [if_neg (by omega), if_neg (by omega)]

/-- C87: the two last arguments of `kick_and_drift` may be left out, for the arrays (16 arguments) and for the machine (11): the call is
then the one with `ftn_out = False` and `callback = None`. -/
theorem C87_defaults (E : Env α) (h : Heap α) (args : List (PyVal α)) (hn : args.length = 16 ∨ args.length = 11) :
    resolve E h kadOverloads args = resolve E h kadOverloads (args ++ [.bool false, .none]) := by
  have key : ∀ cv (o : Overload Kad α), o ∈ (kadOverloads : List (Overload Kad α)) →
      tryOverload E cv h o args = tryOverload E cv h o (args ++ [.bool false, .none]) := by
    intro cv o ho
    simp only [kadOverloads, List.mem_cons, List.not_mem_nil, or_false] at ho
    rcases ho with rfl | rfl | rfl | rfl | rfl <;>
      refine try_defaults rfl (fun _ => rfl) le_rfl ?_ <;>
      simp only [kadMachine, kadScalar, kadArray, List.length_append, List.length_replicate, List.length_cons, List.length_nil] <;>
      omega
  have all : ∀ cv (os : List (Overload Kad α)), (∀ o ∈ os, o ∈ (kadOverloads : List (Overload Kad α))) →
      firstOverload E cv h os args = firstOverload E cv h os (args ++ [.bool false, .none]) := by
    intro cv os
    induction os with
    | nil => intro _; rfl
    | cons o os ih =>
      intro hs
      unfold firstOverload
      rw [key cv o (hs o (List.mem_cons_self ..)), ih fun o' ho' => hs o' (List.mem_cons_of_mem _ ho')]
  unfold resolve
  rw [all false _ fun _ h => h, all true _ fun _ h => h]

/-- C87: the callback alone may be left out too. -/
theorem C87_default_callback (E : Env α) (h : Heap α) (args : List (PyVal α)) (hn : args.length = 17 ∨ args.length = 12) :
    resolve E h kadOverloads args = resolve E h kadOverloads (args ++ [.none]) := by
  have key : ∀ cv (o : Overload Kad α), o ∈ (kadOverloads : List (Overload Kad α)) →
      tryOverload E cv h o args = tryOverload E cv h o (args ++ [.none]) := by
    intro cv o ho
    simp only [kadOverloads, List.mem_cons, List.not_mem_nil, or_false] at ho
    rcases ho with rfl | rfl | rfl | rfl | rfl <;>
      refine try_defaults rfl (fun _ => rfl) (by simp) ?_ <;>
      simp only [kadMachine, kadScalar, kadArray, List.length_append, List.length_replicate, List.length_cons, List.length_nil] <;>
      omega
  have all : ∀ cv (os : List (Overload Kad α)), (∀ o ∈ os, o ∈ (kadOverloads : List (Overload Kad α))) →
      firstOverload E cv h os args = firstOverload E cv h os (args ++ [.none]) := by
    intro cv os
    induction os with
    | nil => intro _; rfl
    | cons o os ih =>
      intro hs
      unfold firstOverload
      rw [key cv o (hs o (List.mem_cons_self ..)), ih fun o' ho' => hs o' (List.mem_cons_of_mem _ ho')]
  unfold resolve
  rw [all false _ fun _ h => h, all true _ fun _ h => h]

/-- a call with sixteen arguments that is accepted: the last two parameters get their defaults -/
example :
    (resolve envQ (trackArrs envQ .f32 driftMach 2 [0] [1]) kadOverloads
      (List.take 16 (refs ((passedArrs envQ .f32 driftMach 2 [0] [1] 0).map (fun r => r.1)) ++
        tailArgs (.float 1) (.float 1) 2 0 0 2 1 false .none))).map
      (fun r => (r.2.1, r.2.2.length, r.2.2.drop 16)) = .ok (.scalar .f32, 18, [.bool false, .obj .none]) := by decide +kernel

end Verif.Props
