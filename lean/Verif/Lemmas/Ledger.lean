import Verif.Spec.Ledger
import Mathlib.Data.List.Nodup
import Mathlib.Data.List.Perm.Basic
import Mathlib.Data.List.Perm.Lattice

/-! # Ownership of the blocks allocated by the C++ library -/

namespace Verif.Ledger

/-- the blocks `S` allocated since address `n0` on top of the older blocks `L` -/
structure At (L : List Block) (n0 : Nat) (S : List Block) (h : Heap) : Prop where
  live : h.live = S ++ L
  le : n0 ≤ h.next
  fresh : ∀ b ∈ S, n0 ≤ b.1 ∧ b.1 < h.next
  nodup : (S.map Prod.fst).Nodup
  old : ∀ b ∈ L, b.1 < n0

variable {α β : Type} {fails : Fails} {L : List Block} {n0 : Nat}

/-- from blocks `S`: `Q` holds of result and blocks when the code returns, `E` of the blocks when it throws; it never deletes
a block that is not in use -/
def Tr (fails : Fails) (L : List Block) (n0 : Nat) (S : List Block) (a : Act α) (Q : α → List Block → Prop) (E : List Block → Prop) :
    Prop :=
  ∀ h, At L n0 S h →
    match a fails h with
    | (.ok r, h') => ∃ S', Q r S' ∧ At L n0 S' h'
    | (.thrown, h') => ∃ S', E S' ∧ At L n0 S' h'
    | (.corrupt, _) => False

theorem Tr.pure (S : List Block) (a : α) (E : List Block → Prop) : Tr fails L n0 S (Act.pure a) (fun r S' => r = a ∧ S' = S) E := by
  intro h hh
  exact ⟨S, ⟨rfl, rfl⟩, hh⟩

theorem Tr.bind {S : List Block} {x : Act α} {f : α → Act β} {Q : α → List Block → Prop} {Q' : β → List Block → Prop}
    {E : List Block → Prop} (hx : Tr fails L n0 S x Q E) (hf : ∀ a S', Q a S' → Tr fails L n0 S' (f a) Q' E) :
    Tr fails L n0 S (x >>= f) Q' E := by
  intro h hh
  have h1 := hx h hh
  show match Act.bind x f fails h with
    | (.ok r, h') => ∃ S', Q' r S' ∧ At L n0 S' h'
    | (.thrown, h') => ∃ S', E S' ∧ At L n0 S' h'
    | (.corrupt, _) => False
  unfold Act.bind
  revert h1
  rcases x fails h with ⟨_ | _ | _, h'⟩
  · rintro ⟨S', q, hat⟩
    exact hf _ S' q h' hat
  · exact id
  · exact id

theorem Tr.weaken {S : List Block} {x : Act α} {Q Q' : α → List Block → Prop} {E E' : List Block → Prop}
    (hx : Tr fails L n0 S x Q E) (hq : ∀ a S', Q a S' → Q' a S') (he : ∀ S', E S' → E' S') : Tr fails L n0 S x Q' E' := by
  intro h hh
  have h1 := hx h hh
  revert h1
  rcases x fails h with ⟨_ | _ | _, h'⟩
  · rintro ⟨S', q, hat⟩
    exact ⟨S', hq _ _ q, hat⟩
  · rintro ⟨S', q, hat⟩
    exact ⟨S', he _ q, hat⟩
  · exact id

theorem Tr.point (S : List Block) (p : Point) :
    Tr fails L n0 S (point p) (fun _ S' => S' = S) (fun S' => S' = S ∧ (p ≠ .work → ¬ NoMem fails)) := by
  intro h hh
  unfold Ledger.point
  have hat : At L n0 S { h with clock := h.clock + 1 } := ⟨hh.live, hh.le, hh.fresh, hh.nodup, hh.old⟩
  by_cases hf : fails h.clock p = true
  · rw [if_pos hf]
    refine ⟨S, ⟨rfl, ?_⟩, hat⟩
    intro hp hn
    have := hn h.clock
    cases p with
    | alloc => rw [this.1] at hf; cases hf
    | python => rw [this.2] at hf; cases hf
    | work => exact hp rfl
  · rw [if_neg hf]
    exact ⟨S, rfl, hat⟩

theorem Tr.new (S : List Block) (n : Nat) :
    Tr fails L n0 S (new n) (fun a S' => S' = (a, n) :: S ∧ a ∉ S.map Prod.fst) (fun S' => S' = S ∧ ¬ NoMem fails) := by
  intro h hh
  unfold Ledger.new
  by_cases hf : fails h.clock .alloc = true
  · rw [if_pos hf]
    refine ⟨S, ⟨rfl, fun hn => ?_⟩, ⟨hh.live, hh.le, hh.fresh, hh.nodup, hh.old⟩⟩
    rw [(hn h.clock).1] at hf
    cases hf
  · rw [if_neg hf]
    have hnot : h.next ∉ S.map Prod.fst := by
      intro hc
      obtain ⟨b, hb, he⟩ := List.mem_map.mp hc
      have := (hh.fresh b hb).2
      omega
    refine ⟨(h.next, n) :: S, ⟨rfl, hnot⟩, ⟨?_, ?_, ?_, ?_, hh.old⟩⟩
    · simp [hh.live]
    · have := hh.le
      simp only
      omega
    · intro b hb
      rcases List.mem_cons.mp hb with rfl | hb
      · have := hh.le
        simp only
        omega
      · have := hh.fresh b hb
        simp only
        omega
    · simp only [List.map_cons, List.nodup_cons]
      exact ⟨hnot, hh.nodup⟩

/-- the blocks other than `a` -/
def without (a : Nat) (S : List Block) : List Block := S.filter fun b => b.1 != a

theorem Tr.delete {S : List Block} {a : Nat} (ha : a ∈ S.map Prod.fst) (E : List Block → Prop) :
    Tr fails L n0 S (delete a) (fun _ S' => S' = without a S) E := by
  intro h hh
  unfold Ledger.delete
  obtain ⟨b, hb, rfl⟩ := List.mem_map.mp ha
  have h1 : (h.live.any fun c => c.1 == b.1) = true := by
    rw [List.any_eq_true]
    exact ⟨b, by rw [hh.live]; exact List.mem_append_left _ hb, by simp⟩
  rw [if_pos h1]
  refine ⟨without b.1 S, rfl, ⟨?_, hh.le, ?_, ?_, hh.old⟩⟩
  · simp only [hh.live, List.filter_append]
    congr 1
    rw [List.filter_eq_self]
    intro c hc
    have h2 := hh.old c hc
    have h3 := (hh.fresh b hb).1
    simp only [bne_iff_ne]
    omega
  · intro c hc
    exact hh.fresh c (List.mem_of_mem_filter hc)
  · exact hh.nodup.sublist (List.Sublist.map _ List.filter_sublist)

theorem Tr.tryClean {S : List Block} {body : Act α} {cleanup : Act Unit} {Q : α → List Block → Prop} {E E' : List Block → Prop}
    (hb : Tr fails L n0 S body Q E) (hc : ∀ S', E S' → Tr fails L n0 S' cleanup (fun _ S'' => E' S'') E') :
    Tr fails L n0 S (tryClean body cleanup) Q E' := by
  intro h hh
  have h1 := hb h hh
  unfold Ledger.tryClean
  revert h1
  rcases body fails h with ⟨_ | _ | _, h'⟩
  · exact id
  · rintro ⟨S', e, hat⟩
    have h2 := hc S' e h' hat
    dsimp only
    revert h2
    rcases cleanup fails h' with ⟨_ | _ | _, h''⟩
    · exact id
    · exact id
    · exact id
  · exact id

/-- code that neither allocates nor deletes -/
def Quiet (fails : Fails) (a : Act Unit) : Prop := ∀ L n0 S, Tr fails L n0 S a (fun _ S' => S' = S) (fun S' => S' = S)

theorem quiet_point (p : Point) : Quiet fails (point p) := fun _ _ S => (Tr.point S p).weaken (fun _ _ h => h) fun _ h => h.1

theorem Quiet.bind {a b : Act Unit} (ha : Quiet fails a) (hb : Quiet fails b) : Quiet fails (a >>= fun _ => b) := fun L n0 S =>
  (ha L n0 S).bind fun _ S' h => by
    cases h
    exact hb L n0 S

theorem quiet_loop {a : Act Unit} (ha : Quiet fails a) (n : Nat) : Quiet fails (loop n a) := by
  induction n with
  | zero => exact fun L n0 S => (Tr.pure S () _).weaken (fun _ _ h => h.2) fun _ h => h
  | succ n ih => exact Quiet.bind ih ha

theorem without_append (a : Nat) (X S : List Block) : without a (X ++ S) = without a X ++ without a S := List.filter_append ..

theorem without_self (a n : Nat) (S : List Block) : without a ((a, n) :: S) = without a S := by simp [without]

theorem without_ne {a b : Nat} (n : Nat) (S : List Block) (h : b ≠ a) : without a ((b, n) :: S) = (b, n) :: without a S := by
  simp [without, h]

theorem without_not {a : Nat} {S : List Block} (h : a ∉ S.map Prod.fst) : without a S = S := by
  rw [without, List.filter_eq_self]
  intro b hb
  simp only [bne_iff_ne]
  rintro rfl
  exact h (List.mem_map_of_mem hb)

theorem without_nil (a : Nat) : without a [] = [] := rfl

theorem mem_without {a b : Nat} {S : List Block} (h : b ∈ S.map Prod.fst) (hab : b ≠ a) : b ∈ (without a S).map Prod.fst := by
  obtain ⟨c, hc, rfl⟩ := List.mem_map.mp h
  exact List.mem_map_of_mem (List.mem_filter.mpr ⟨hc, by simpa using hab⟩)

theorem delete2 {S : List Block} {a b : Nat} (ha : a ∈ S.map Prod.fst) (hb : b ∈ S.map Prod.fst) (hba : b ≠ a) (E : List Block → Prop) :
    Tr fails L n0 S (do delete a; delete b) (fun _ S' => S' = without b (without a S)) E :=
  (Tr.delete ha E).bind fun _ _ h => by
    cases h
    exact Tr.delete (mem_without hb hba) E

theorem delete3 {S : List Block} {a b c : Nat} (ha : a ∈ S.map Prod.fst) (hb : b ∈ S.map Prod.fst) (hc : c ∈ S.map Prod.fst)
    (hba : b ≠ a) (hca : c ≠ a) (hcb : c ≠ b) (E : List Block → Prop) :
    Tr fails L n0 S (do delete a; delete b; delete c) (fun _ S' => S' = without c (without b (without a S))) E :=
  (Tr.delete ha E).bind fun _ _ h => by
    cases h
    exact delete2 (mem_without hb hba) (mem_without hc hca) hcb E

theorem delete4 {S : List Block} {a b c d : Nat} (ha : a ∈ S.map Prod.fst) (hb : b ∈ S.map Prod.fst) (hc : c ∈ S.map Prod.fst)
    (hd : d ∈ S.map Prod.fst) (hba : b ≠ a) (hca : c ≠ a) (hda : d ≠ a) (hcb : c ≠ b) (hdb : d ≠ b) (hdc : d ≠ c) (E : List Block → Prop) :
    Tr fails L n0 S (do delete a; delete b; delete c; delete d)
      (fun _ S' => S' = without d (without c (without b (without a S)))) E :=
  (Tr.delete ha E).bind fun _ _ h => by
    cases h
    exact delete3 (mem_without hb hba) (mem_without hc hca) (mem_without hd hda) hcb hdb hdc E

/-- what a failing routine leaves on top of the blocks `S`: nothing unless memory ran out -/
def Left (fails : Fails) (S : List Block) (S' : List Block) : Prop := ∃ X, S' = X ++ S ∧ (NoMem fails → X = [])

theorem left_self (S : List Block) : Left fails S S := ⟨[], rfl, fun _ => rfl⟩

theorem left_cons {S S' : List Block} {b : Block} (h : S' = b :: S) (hn : ¬ NoMem fails) : Left fails S S' :=
  ⟨[b], h, fun h => absurd h hn⟩

theorem left_trans {S S' S'' : List Block} {b : Block} (h : Left fails S' S'') (hs : S' = b :: S) (hn : ¬ NoMem fails) : Left fails S S'' := by
  obtain ⟨X, rfl, -⟩ := h
  exact ⟨X ++ [b], by rw [hs]; simp, fun h => absurd h hn⟩

theorem tr_work (niter : Nat) : Quiet fails (do
    point .work
    loop niter (do
      point .work
      point .work
      point .work)
    point .work
    point .work) :=
  (quiet_point _).bind ((quiet_loop ((quiet_point _).bind ((quiet_point _).bind (quiet_point _))) niter).bind
    ((quiet_point _).bind (quiet_point _)))

theorem tr_reconstruct (S : List Block) (niter nbins npart nprof : Nat) :
    Tr fails L n0 S (reconstruct niter nbins npart nprof) (fun _ S' => S' = S) (Left fails S) := by
  unfold reconstruct
  refine ((Tr.new S _).weaken (fun _ _ h => h) (fun S' h => by rw [h.1]; exact left_self S)).bind fun a S₁ h₁ => ?_
  refine ((Tr.new S₁ _).weaken (fun _ _ h => h) (fun S' h => ?_)).bind fun b S₂ h₂ => ?_
  · exact left_cons (h.1.trans h₁.1) h.2
  refine ((Tr.new S₂ _).weaken (fun _ _ h => h) (fun S' h => ?_)).bind fun c S₃ h₃ => ?_
  · exact left_trans (left_cons (h.1.trans h₂.1) h.2) h₁.1 h.2
  obtain ⟨rfl, ha⟩ := h₁
  obtain ⟨rfl, hb⟩ := h₂
  obtain ⟨rfl, hc⟩ := h₃
  simp only [List.map_cons, List.mem_cons, not_or] at hb hc
  have key : ∀ E, Tr fails L n0 ((c, npart * nprof) :: (b, nprof * nbins) :: (a, nprof * nbins) :: S)
      (do delete a; delete b; delete c) (fun _ S' => S' = S) E := by
    intro E
    refine (delete3 (by simp) (by simp) (by simp) hb.1 hc.2.1 hc.1 E).weaken (fun _ S' h => ?_) fun _ h => h
    rw [h]
    simp only [without_ne _ _ hc.2.1, without_ne _ _ hb.1, without_self, without_not ha, without_ne _ _ hc.1, without_not hb.2, without_not hc.2.2]
  refine (Tr.tryClean (E := fun S' => S' = (c, npart * nprof) :: (b, nprof * nbins) :: (a, nprof * nbins) :: S)
    (tr_work niter _ _ _) fun S' h => ?_).bind fun _ S' h => ?_
  · cases h
    exact (key _).weaken (fun _ _ h => by rw [h]; exact left_self S) fun _ h => h
  · cases h
    exact key _

theorem tr_reconstructMulti (S : List Block) (niter nbins npart nprof ncenter : Nat) :
    Tr fails L n0 S (reconstructMulti niter nbins npart nprof ncenter) (fun _ S' => S' = S) (Left fails S) := by
  unfold reconstructMulti
  refine ((Tr.new S _).weaken (fun _ _ h => h) (fun S' h => by rw [h.1]; exact left_self S)).bind fun a S₁ h₁ => ?_
  refine ((Tr.new S₁ _).weaken (fun _ _ h => h) (fun S' h => ?_)).bind fun b S₂ h₂ => ?_
  · exact left_cons (h.1.trans h₁.1) h.2
  refine ((Tr.new S₂ _).weaken (fun _ _ h => h) (fun S' h => ?_)).bind fun c S₃ h₃ => ?_
  · exact left_trans (left_cons (h.1.trans h₂.1) h.2) h₁.1 h.2
  refine ((Tr.new S₃ _).weaken (fun _ _ h => h) (fun S' h => ?_)).bind fun d S₄ h₄ => ?_
  · exact left_trans (left_trans (left_cons (h.1.trans h₃.1) h.2) h₂.1 h.2) h₁.1 h.2
  obtain ⟨rfl, ha⟩ := h₁
  obtain ⟨rfl, hb⟩ := h₂
  obtain ⟨rfl, hc⟩ := h₃
  obtain ⟨rfl, hd⟩ := h₄
  simp only [List.map_cons, List.mem_cons, not_or] at hb hc hd
  have key : ∀ E, Tr fails L n0 ((d, npart * ncenter) :: (c, npart * nprof) :: (b, nprof * nbins) :: (a, nprof * nbins) :: S)
      (do delete a; delete b; delete c; delete d) (fun _ S' => S' = S) E := by
    intro E
    refine (delete4 (by simp) (by simp) (by simp) (by simp) hb.1 hc.2.1 hd.2.2.1 hc.1 hd.2.1 hd.1 E).weaken (fun _ S' h => ?_) fun _ h => h
    rw [h]
    simp only [without_ne _ _ hd.2.2.1, without_ne _ _ hc.2.1, without_ne _ _ hb.1, without_self, without_not ha, without_ne _ _ hd.2.1, without_ne _ _ hc.1, without_not hb.2, without_ne _ _ hd.1, without_not hc.2.2, without_not hd.2.2.2]
  refine (Tr.tryClean (E := fun S' => S' = (d, npart * ncenter) :: (c, npart * nprof) :: (b, nprof * nbins) :: (a, nprof * nbins) :: S)
    (tr_work niter _ _ _) fun S' h => ?_).bind fun _ S' h => ?_
  · cases h
    exact (key _).weaken (fun _ _ h => by rw [h]; exact left_self S) fun _ h => h
  · cases h
    exact key _

/-- a function that hands its blocks over to the arrays it returns, of the sizes `sizes`; when it fails, blocks of the sizes `waste` are left, unless
memory ran out; when `waste` is not empty it always fails -/
def Owns (fails : Fails) (sizes waste : List Nat) (a : Act (List Nat)) : Prop :=
  ∀ L n0, Tr fails L n0 [] a (fun r S' => (S'.reverse = r.zip sizes ∧ r.length = sizes.length) ∧ waste = []) (fun S' => NoMem fails → S'.map Prod.snd = waste)

theorem held_perm {r sizes : List Nat} {S : List Block} (h : S.reverse = r.zip sizes ∧ r.length = sizes.length) :
    r.Perm (S.map Prod.fst) := by
  have h1 : (S.map Prod.fst).reverse = r := by
    rw [← List.map_reverse, h.1, List.map_fst_zip h.2.le]
  rw [← h1]
  exact List.reverse_perm _

theorem Tr.capsule {S : List Block} {a : Nat} {rest : Act α} {Q : α → List Block → Prop} {E E' : List Block → Prop}
    (hr : Tr fails L n0 S rest Q E) (hm : ∀ S', E S' → a ∈ S'.map Prod.fst ∧ E' (without a S')) (h0 : ¬ NoMem fails → E' S) :
    Tr fails L n0 S (Ledger.capsule a rest) Q E' := by
  unfold Ledger.capsule
  refine ((Tr.point S .python).weaken (fun _ _ h => h) fun S' h => ?_).bind fun _ S' h => ?_
  · rw [h.1]
    exact h0 (h.2 (by decide))
  · cases h
    exact Tr.tryClean hr fun S' hE => (Tr.delete (hm S' hE).1 E').weaken (fun _ _ h => h ▸ (hm S' hE).2) fun _ h => h

theorem tr_tuple2 (S : List Block) (r : List Nat) (k : Nat) :
    Tr fails L n0 S (do loop k (point .python); pure r) (fun r' S' => r' = r ∧ S' = S) (fun S' => ¬ NoMem fails ∧ S' = S) := by
  have hl : Tr fails L n0 S (loop k (point .python)) (fun _ S' => S' = S) (fun S' => ¬ NoMem fails ∧ S' = S) := by
    induction k with
    | zero => exact (Tr.pure S () _).weaken (fun _ _ h => h.2) fun _ h => h
    | succ k ih =>
      refine Tr.bind ih fun _ S' h => ?_
      cases h
      exact (Tr.point S .python).weaken (fun _ _ h => h) fun _ h => ⟨h.2 (by decide), h.1⟩
  refine hl.bind fun _ S' h => ?_
  cases h
  exact Tr.pure S r _

theorem tr_python {S : List Block} {rest : Act α} {Q : α → List Block → Prop}
    (h : Tr fails L n0 S rest Q (fun S' => ¬ NoMem fails ∧ S' = S)) :
    Tr fails L n0 S (do point .python; rest) Q (fun S' => ¬ NoMem fails ∧ S' = S) :=
  ((Tr.point S .python).weaken (fun _ _ h => h) fun _ h => ⟨h.2 (by decide), h.1⟩).bind fun _ S' e => by
    cases e
    exact h

theorem tr_ret (S : List Block) (r : α) : Tr fails L n0 S (pure r : Act α) (fun r' S' => r' = r ∧ S' = S) (fun S' => ¬ NoMem fails ∧ S' = S) :=
  Tr.pure S r _

theorem owns_reconstruct (niter nbins npart nprof : Nat) : Owns fails [npart, niter + 1, nprof * nbins] [] (wrapperReconstruct niter nbins npart nprof) := by
  intro L n0
  unfold wrapperReconstruct
  refine ((Tr.new [] _).weaken (fun _ _ h => h) (fun S' h hn => absurd hn h.2)).bind fun a S₁ h₁ => ?_
  refine ((Tr.new S₁ _).weaken (fun _ _ h => h) (fun S' h hn => absurd hn h.2)).bind fun b S₂ h₂ => ?_
  refine ((Tr.new S₂ _).weaken (fun _ _ h => h) (fun S' h hn => absurd hn h.2)).bind fun c S₃ h₃ => ?_
  obtain ⟨rfl, ha⟩ := h₁
  obtain ⟨rfl, hb⟩ := h₂
  obtain ⟨rfl, hc⟩ := h₃
  simp only [List.map_cons, List.mem_cons, not_or, List.map_nil] at hb hc
  refine (Tr.tryClean (tr_reconstruct _ niter nbins npart nprof) fun S' h => ?_).bind fun _ S' h => ?_
  · obtain ⟨X, rfl, hX⟩ := h
    refine (delete3 (by simp) (by simp) (by simp) hb.1 hc.2.1 hc.1 _).weaken (fun _ S' h => ?_) fun _ h => h
    intro hn
    rw [h, hX hn, List.nil_append]
    simp only [without_ne _ _ hc.2.1, without_ne _ _ hb.1, without_self, without_nil, without_ne _ _ hc.1, List.map_nil]
  · cases h
    refine (Tr.capsule (E := fun S' => ¬ NoMem fails ∧ a ∈ S'.map Prod.fst) (E' := fun S' => ¬ NoMem fails)
      (Tr.capsule (E := fun S' => ¬ NoMem fails ∧ a ∈ S'.map Prod.fst ∧ b ∈ S'.map Prod.fst)
        (Tr.capsule (tr_python (tr_python (tr_python (tr_python (tr_ret _ _))))) (fun S' h => ?_) fun hn => ?_)
        (fun S' h => ?_) fun hn => ?_) (fun S' h => ?_) fun hn => ?_).weaken (fun r S' h => ?_) fun S' h hn => absurd hn h
    · obtain ⟨hn, rfl⟩ := h
      refine ⟨by simp, hn, mem_without (by simp) (Ne.symm hc.2.1), mem_without (by simp) (Ne.symm hc.1)⟩
    · exact ⟨hn, by simp, by simp⟩
    · exact ⟨h.2.2, h.1, mem_without h.2.1 (Ne.symm hb.1)⟩
    · exact ⟨hn, by simp⟩
    · exact ⟨h.2, h.1⟩
    · exact hn
    · obtain ⟨rfl, rfl⟩ := h
      exact ⟨⟨rfl, rfl⟩, rfl⟩

theorem owns_reconstructMulti (niter nbins npart nprof ncenter : Nat) :
    Owns fails [npart * ncenter, niter + 1, ncenter * (niter + 1), nprof * nbins] [] (wrapperReconstructMulti niter nbins npart nprof ncenter) := by
  intro L n0
  unfold wrapperReconstructMulti
  refine ((Tr.new [] _).weaken (fun _ _ h => h) (fun S' h hn => absurd hn h.2)).bind fun a S₁ h₁ => ?_
  refine ((Tr.new S₁ _).weaken (fun _ _ h => h) (fun S' h hn => absurd hn h.2)).bind fun b S₂ h₂ => ?_
  refine ((Tr.new S₂ _).weaken (fun _ _ h => h) (fun S' h hn => absurd hn h.2)).bind fun c S₃ h₃ => ?_
  refine ((Tr.new S₃ _).weaken (fun _ _ h => h) (fun S' h hn => absurd hn h.2)).bind fun d S₄ h₄ => ?_
  obtain ⟨rfl, ha⟩ := h₁
  obtain ⟨rfl, hb⟩ := h₂
  obtain ⟨rfl, hc⟩ := h₃
  obtain ⟨rfl, hd⟩ := h₄
  simp only [List.map_cons, List.mem_cons, not_or, List.map_nil] at hb hc hd
  refine (Tr.tryClean (tr_reconstructMulti _ niter nbins npart nprof ncenter) fun S' h => ?_).bind fun _ S' h => ?_
  · obtain ⟨X, rfl, hX⟩ := h
    refine (delete4 (by simp) (by simp) (by simp) (by simp) hb.1 hc.2.1 hd.2.2.1 hc.1 hd.2.1 hd.1 _).weaken (fun _ S' h => ?_) fun _ h => h
    intro hn
    rw [h, hX hn, List.nil_append]
    simp only [without_ne _ _ hd.2.2.1, without_ne _ _ hc.2.1, without_ne _ _ hb.1, without_self, without_nil, without_ne _ _ hd.2.1, without_ne _ _ hc.1, without_ne _ _ hd.1, List.map_nil]
  · cases h
    refine (Tr.capsule (E := fun S' => ¬ NoMem fails ∧ a ∈ S'.map Prod.fst) (E' := fun S' => ¬ NoMem fails)
      (Tr.capsule (E := fun S' => ¬ NoMem fails ∧ a ∈ S'.map Prod.fst ∧ b ∈ S'.map Prod.fst)
        (Tr.capsule (E := fun S' => ¬ NoMem fails ∧ a ∈ S'.map Prod.fst ∧ b ∈ S'.map Prod.fst ∧ c ∈ S'.map Prod.fst)
          (Tr.capsule (tr_python (tr_python (tr_python (tr_python (tr_python (tr_ret _ _)))))) (fun S' h => ?_) fun hn => ?_)
          (fun S' h => ?_) fun hn => ?_) (fun S' h => ?_) fun hn => ?_) (fun S' h => ?_) fun hn => ?_).weaken
      (fun r S' h => ?_) fun S' h hn => absurd hn h
    · obtain ⟨hn, rfl⟩ := h
      refine ⟨by simp, hn, mem_without (by simp) (Ne.symm hd.2.2.1), mem_without (by simp) (Ne.symm hd.2.1),
        mem_without (by simp) (Ne.symm hd.1)⟩
    · exact ⟨hn, by simp, by simp, by simp⟩
    · exact ⟨h.2.2.2, h.1, mem_without h.2.1 (Ne.symm hc.2.1), mem_without h.2.2.1 (Ne.symm hc.1)⟩
    · exact ⟨hn, by simp, by simp⟩
    · exact ⟨h.2.2, h.1, mem_without h.2.1 (Ne.symm hb.1)⟩
    · exact ⟨hn, by simp⟩
    · exact ⟨h.2, h.1⟩
    · exact hn
    · obtain ⟨rfl, rfl⟩ := h
      exact ⟨⟨rfl, rfl⟩, rfl⟩

theorem owns_makePhaseSpace (nbins : Nat) (ps : List (Int × Int)) :
    Owns fails [nbins * nbins] (if outside nbins ps then [nbins * nbins] else []) (wrapperMakePhaseSpace nbins ps) := by
  intro L n0
  unfold wrapperMakePhaseSpace makePhaseSpace
  refine Tr.bind (Q := fun a S' => S' = [(a, nbins * nbins)] ∧ outside nbins ps = false)
    (((Tr.new [] _).weaken (fun _ _ h => h) (fun S' h hn => absurd hn h.2)).bind fun a S₁ h₁ => ?_) fun a S' h => ?_
  · obtain ⟨rfl, -⟩ := h₁
    by_cases hb : outside nbins ps = true
    · rw [if_pos hb, if_pos hb]
      intro h hat
      exact ⟨_, fun _ => rfl, hat⟩
    · rw [if_neg hb]
      exact (Tr.pure _ a _).weaken (fun r S' h => ⟨by rw [h.1, h.2], by simpa using hb⟩) fun _ h => h
  · obtain ⟨rfl, hb⟩ := h
    rw [hb]
    refine (Tr.capsule (E' := fun S' => ¬ NoMem fails) (tr_python (tr_ret _ _)) (fun S' h => ?_) fun hn => hn).weaken
      (fun r S' h => ?_) fun S' h hn => absurd hn h
    · obtain ⟨hn, rfl⟩ := h
      exact ⟨by simp, hn⟩
    · obtain ⟨rfl, rfl⟩ := h
      exact ⟨⟨rfl, rfl⟩, by simp⟩

theorem quiet_kickAndDrift (up down : Nat) : Quiet fails (kickAndDrift up down) :=
  (quiet_loop (quiet_point _) up).bind (quiet_loop (quiet_point _) down)

theorem tr_trackArray (S : List Block) (nprof up down : Nat) :
    Tr fails L n0 S (wrapperKickAndDriftArray nprof up down) (fun r S' => r = [] ∧ S' = S) (Left fails S) := by
  unfold wrapperKickAndDriftArray
  refine ((Tr.new S _).weaken (fun _ _ h => h) (fun S' h => by rw [h.1]; exact left_self S)).bind fun a S₁ h₁ => ?_
  refine ((Tr.new S₁ _).weaken (fun _ _ h => h) (fun S' h => ?_)).bind fun b S₂ h₂ => ?_
  · exact left_cons (h.1.trans h₁.1) h.2
  obtain ⟨rfl, ha⟩ := h₁
  obtain ⟨rfl, hb⟩ := h₂
  simp only [List.map_cons, List.mem_cons, not_or] at hb
  have key : ∀ E, Tr fails L n0 ((b, nprof) :: (a, nprof) :: S) (do delete a; delete b) (fun _ S' => S' = S) E := by
    intro E
    refine (delete2 (by simp) (by simp) hb.1 E).weaken (fun _ S' h => ?_) fun _ h => h
    rw [h]
    simp only [without_ne _ _ hb.1, without_self, without_not ha, without_not hb.2]
  refine (Tr.tryClean (E := fun S' => S' = (b, nprof) :: (a, nprof) :: S) (quiet_kickAndDrift up down _ _ _) fun S' h => ?_).bind
    fun _ S' h => ?_
  · cases h
    exact (key _).weaken (fun _ _ h => by rw [h]; exact left_self S) fun _ h => h
  · cases h
    refine (key _).bind fun _ S' h => ?_
    cases h
    exact (tr_python (tr_ret S [])).weaken (fun _ _ h => h) fun S' h => by rw [h.2]; exact left_self S

theorem owns_trackArray (nprof up down : Nat) : Owns fails [] [] (wrapperKickAndDriftArray nprof up down) := by
  intro L n0
  refine (tr_trackArray [] nprof up down).weaken (fun r S' h => ?_) fun S' h hn => ?_
  · rw [h.1, h.2]
    exact ⟨⟨rfl, rfl⟩, rfl⟩
  · obtain ⟨X, rfl, hX⟩ := h
    rw [hX hn]
    rfl

theorem owns_trackScalar (nturns nprof up down : Nat) : Owns fails [] [] (wrapperKickAndDriftScalar nturns nprof up down) := by
  intro L n0
  unfold wrapperKickAndDriftScalar
  refine ((Tr.new [] _).weaken (fun _ _ h => h) (fun S' h hn => absurd hn h.2)).bind fun a S₁ h₁ => ?_
  obtain ⟨rfl, ha⟩ := h₁
  have inner : Tr fails L n0 [(a, nturns)] (do
      point .python
      let _ ← wrapperKickAndDriftArray nprof up down
      point .python) (fun _ S' => S' = [(a, nturns)]) (Left fails [(a, nturns)]) := by
    refine ((quiet_point _ _ _ _).weaken (fun _ _ h => h) fun S' h => by rw [h]; exact left_self _).bind fun _ S' h => ?_
    cases h
    refine (tr_trackArray _ nprof up down).bind fun r S' h => ?_
    obtain ⟨-, rfl⟩ := h
    exact (quiet_point _ _ _ _).weaken (fun _ _ h => h) fun S' h => by rw [h]; exact left_self _
  refine (Tr.capsule inner (fun S' h => ?_) fun hn hn' => absurd hn' hn).bind fun _ S' h => ?_
  · obtain ⟨X, rfl, hX⟩ := h
    refine ⟨by simp, fun hn => ?_⟩
    rw [hX hn, List.nil_append, without_self, without_nil]
    rfl
  · cases h
    refine (Tr.delete (by simp) _).bind fun _ S' h => ?_
    cases h
    exact (Tr.pure _ _ _).weaken (fun r S' h => by rw [h.1, h.2, without_self]; exact ⟨⟨rfl, rfl⟩, rfl⟩) fun _ h => h

/-! ## Histories -/

theorem owns_call (c : Call) : Owns fails c.sizes c.waste c.act := by
  cases c with
  | reconstruct i b p f => exact owns_reconstruct i b p f
  | reconstructMulti i b p f c => exact owns_reconstructMulti i b p f c
  | makePhaseSpace b ps => exact owns_makePhaseSpace b ps
  | trackArray f u d => exact owns_trackArray f u d
  | trackScalar t f u d => exact owns_trackScalar t f u d
  | drop k =>
    exact fun L n0 => (Tr.pure [] [] _).weaken (fun r S' h => by rw [h.1, h.2]; exact ⟨⟨rfl, rfl⟩, rfl⟩) fun _ h => h

/-- python's arrays and the heap, with the blocks `lost` that nobody can delete any more -/
structure Inv (s : State) (lost : List Block) : Prop where
  whole : s.broken = false
  low : ∀ b ∈ s.heap.live, b.1 < s.heap.next
  nodup : (s.heap.live.map Prod.fst).Nodup
  split : (s.heap.live.map Prod.fst).Perm (s.held ++ lost.map Prod.fst)
  lost : ∀ b ∈ lost, b ∈ s.heap.live

theorem step_other {s : State} {c : Call} (hc : ∀ k, c ≠ .drop k) : step fails s c =
    match c.act fails s.heap with
    | (.ok r, h) => { s with held := r ++ s.held, heap := h }
    | (.thrown, h) => { s with heap := h }
    | (.corrupt, h) => { s with heap := h, broken := true } := by
  cases c with
  | drop k => exact absurd rfl (hc k)
  | _ => rfl

theorem step_inv {s : State} {lost : List Block} (hs : Inv s lost) (c : Call) :
    ∃ more : List Block, Inv (step fails s c) (more ++ lost) ∧ (NoMem fails → more.map Prod.snd = c.waste) := by
  by_cases hd : ∃ k, c = .drop k
  · obtain ⟨k, rfl⟩ := hd
    refine ⟨[], ?_, fun _ => rfl⟩
    unfold step
    dsimp only
    cases hk : s.held[k]? with
    | none => exact hs
    | some a =>
      have ha : a ∈ s.held := List.mem_of_getElem? hk
      have hal : a ∈ s.heap.live.map Prod.fst := hs.split.mem_iff.mpr (List.mem_append_left _ ha)
      obtain ⟨b, hb, rfl⟩ := List.mem_map.mp hal
      have h1 : (s.heap.live.any fun c => c.1 == b.1) = true := by
        rw [List.any_eq_true]
        exact ⟨b, hb, by simp⟩
      unfold delete
      dsimp only
      rw [if_pos h1]
      dsimp only
      have hn : (s.held ++ lost.map Prod.fst).Nodup := hs.split.nodup_iff.mp hs.nodup
      have he : (s.held.eraseIdx k).Perm (s.held.erase b.1) := by
        obtain ⟨hlt, hk'⟩ := List.getElem?_eq_some_iff.mp hk
        have hh : (s.held[k] :: s.held.eraseIdx k).Perm s.held := List.getElem_cons_eraseIdx_perm hlt
        rw [hk'] at hh
        exact (List.perm_cons b.1).mp (hh.trans (List.perm_cons_erase ha))
      have hnl : b.1 ∉ lost.map Prod.fst := (List.disjoint_of_nodup_append hn) ha
      have hmap : (s.heap.live.filter fun c => c.1 != b.1).map Prod.fst = (s.heap.live.map Prod.fst).erase b.1 := by
        rw [hs.nodup.erase_eq_filter, List.filter_map]
        rfl
      refine ⟨hs.whole, fun c hc => hs.low c (List.mem_of_mem_filter hc), ?_, ?_, ?_⟩
      · rw [hmap]
        exact hs.nodup.erase _
      · show ((s.heap.live.filter fun c => c.1 != b.1).map Prod.fst).Perm (s.held.eraseIdx k ++ ([] ++ lost).map Prod.fst)
        rw [hmap, List.nil_append]
        refine (hs.split.erase b.1).trans ?_
        rw [List.erase_append_left _ ha]
        exact he.symm.append_right _
      · intro c hc
        refine List.mem_filter.mpr ⟨hs.lost c hc, ?_⟩
        simp only [bne_iff_ne]
        intro hcb
        exact hnl (hcb ▸ List.mem_map_of_mem hc)
  · push Not at hd
    rw [step_other hd]
    have hat : At s.heap.live s.heap.next [] s.heap := ⟨rfl, le_rfl, by simp, by simp, hs.low⟩
    have h := owns_call (fails := fails) c s.heap.live s.heap.next s.heap hat
    have base : ∀ {S' : List Block} {h' : Heap}, At s.heap.live s.heap.next S' h' →
        (∀ b ∈ h'.live, b.1 < h'.next) ∧ (h'.live.map Prod.fst).Nodup := by
      intro S' h' g
      constructor
      · intro b hb
        rw [g.live] at hb
        rcases List.mem_append.mp hb with hb | hb
        · exact (g.fresh b hb).2
        · exact (hs.low b hb).trans_le g.le
      · rw [g.live, List.map_append]
        refine List.Nodup.append g.nodup hs.nodup ?_
        intro a h1 h2
        obtain ⟨b, hb, rfl⟩ := List.mem_map.mp h1
        obtain ⟨c, hc, he⟩ := List.mem_map.mp h2
        have := (g.fresh b hb).1
        have := hs.low c hc
        omega
    revert h
    rcases c.act fails s.heap with ⟨r | _ | _, h'⟩
    · rintro ⟨S', ⟨hz, hw⟩, g⟩
      have hp := held_perm hz
      refine ⟨[], ⟨hs.whole, (base g).1, (base g).2, ?_, ?_⟩, fun _ => hw.symm⟩
      · show (h'.live.map Prod.fst).Perm ((r ++ s.held) ++ ([] ++ lost).map Prod.fst)
        rw [g.live, List.map_append, List.nil_append, List.append_assoc]
        exact hp.symm.append hs.split
      · intro b hb
        show b ∈ h'.live
        rw [g.live]
        exact List.mem_append_right _ (hs.lost b hb)
    · rintro ⟨S', hw, g⟩
      refine ⟨S', ⟨hs.whole, (base g).1, (base g).2, ?_, ?_⟩, hw⟩
      · show (h'.live.map Prod.fst).Perm (s.held ++ (S' ++ lost).map Prod.fst)
        rw [g.live, List.map_append, List.map_append, ← List.append_assoc]
        refine (hs.split.append_left _).trans ?_
        rw [← List.append_assoc]
        exact List.perm_append_comm.append_right _
      · intro b hb
        show b ∈ h'.live
        rw [g.live]
        rcases List.mem_append.mp hb with hb | hb
        · exact List.mem_append_left _ hb
        · exact List.mem_append_right _ (hs.lost b hb)
    · exact False.elim

theorem run_inv (calls : List Call) :
    ∃ lost : List Block, Inv (run fails calls) lost ∧ (NoMem fails → (lost.map Prod.snd).Perm (calls.flatMap Call.waste)) := by
  suffices h : ∀ (calls : List Call) (s : State) (lost : List Block), Inv s lost → ∃ more : List Block,
      Inv (calls.foldl (step fails) s) (more ++ lost) ∧ (NoMem fails → (more.map Prod.snd).Perm (calls.flatMap Call.waste)) by
    have h0 : Inv start [] := ⟨rfl, by simp [start], by simp [start], by simp [start], by simp⟩
    obtain ⟨more, h1, h2⟩ := h calls start [] h0
    rw [List.append_nil] at h1
    exact ⟨more, h1, h2⟩
  intro calls
  induction calls with
  | nil => exact fun s lost hs => ⟨[], hs, fun _ => by simp⟩
  | cons c calls ih =>
    intro s lost hs
    obtain ⟨m1, h1, w1⟩ := step_inv (fails := fails) hs c
    obtain ⟨m2, h2, w2⟩ := ih _ _ h1
    refine ⟨m2 ++ m1, ?_, fun hn => ?_⟩
    · rw [List.append_assoc]
      exact h2
    · rw [List.map_append, List.flatMap_cons, w1 hn]
      exact ((w2 hn).append_right _).trans List.perm_append_comm

theorem Inv.perm {s : State} {lost : List Block} (h : Inv s lost) : ∃ own : List Block,
    s.heap.live.Perm (own ++ lost) ∧ (own.map Prod.fst).Perm s.held := by
  have hn : s.heap.live.Nodup := List.Nodup.of_map _ h.nodup
  have hl : (lost.map Prod.fst).Nodup := (h.split.nodup_iff.mp h.nodup).of_append_right
  have hp : (s.heap.live.filter fun b => decide (b ∈ lost)).Perm lost := by
    rw [List.perm_ext_iff_of_nodup (hn.filter _) (List.Nodup.of_map _ hl)]
    intro b
    rw [List.mem_filter, decide_eq_true_iff]
    exact ⟨fun g => g.2, fun g => ⟨h.lost b g, g⟩⟩
  refine ⟨s.heap.live.filter fun b => !decide (b ∈ lost), ?_, ?_⟩
  · exact (List.filter_append_perm (fun b => decide (b ∈ lost)) _).symm.trans
      (List.perm_append_comm.trans (hp.append_left _))
  · have h1 := ((List.filter_append_perm (fun b => decide (b ∈ lost)) s.heap.live).map Prod.fst).trans h.split
    rw [List.map_append] at h1
    exact (List.perm_append_right_iff _).mp (List.perm_append_comm.trans (((hp.map Prod.fst).append_right _).symm.trans h1))

theorem step_failing {s : State} {lost : List Block} (hs : Inv s lost) {c : Call} (hw : c.waste ≠ []) :
    (step fails s c).held = s.held := by
  have hd : ∀ k, c ≠ .drop k := by
    rintro k rfl
    exact hw rfl
  rw [step_other hd]
  have hat : At s.heap.live s.heap.next [] s.heap := ⟨rfl, le_rfl, by simp, by simp, hs.low⟩
  have h := owns_call (fails := fails) c s.heap.live s.heap.next s.heap hat
  revert h
  rcases c.act fails s.heap with ⟨r | _ | _, h'⟩
  · rintro ⟨S', ⟨hp, h0⟩, g⟩
    exact absurd h0 hw
  · exact fun _ => rfl
  · exact fun _ => rfl

/-- a call that throws without running out of memory and without waste leaves the heap as it was -/
theorem act_thrown {s : State} {lost : List Block} (hs : Inv s lost) (hn : NoMem fails) {c : Call} (hw : c.waste = [])
    {h' : Heap} (ht : c.act fails s.heap = (.thrown, h')) : h'.live = s.heap.live := by
  have hat : At s.heap.live s.heap.next [] s.heap := ⟨rfl, le_rfl, by simp, by simp, hs.low⟩
  have h := owns_call (fails := fails) c s.heap.live s.heap.next s.heap hat
  rw [ht] at h
  obtain ⟨S', h1, g⟩ := h
  have h2 := h1 hn
  rw [hw, List.map_eq_nil_iff] at h2
  rw [g.live, h2, List.nil_append]

end Verif.Ledger
