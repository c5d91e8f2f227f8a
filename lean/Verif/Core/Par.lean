import Verif.Core.Buf
import Mathlib.Logic.Function.Basic
import Mathlib.Logic.Relation

/-!
# Threads sharing memory

Sequentially consistent interleavings at the granularity of single loads, stores and atomic read-modify-writes.
`A` is the type of memory locations, `V a` the type of the value held by location `a`.
C++ gives racy programs no meaning at all; the interleavings below are the mildest reading, so a wrong result found
here is wrong under every reading, and the programs proved deterministic below are free of races.
-/

namespace Verif.Par

/-- A thread: what it does next. -/
inductive Prog (A : Type) (V : A → Type) : Type
  | done
  /-- read a location, continue with the value -/
  | load (a : A) (k : V a → Prog A V)
  /-- write a location -/
  | store (a : A) (v : V a) (k : Prog A V)
  /-- `atomicAdd` and the like: one indivisible update -/
  | atomic (a : A) (f : V a → V a) (k : Prog A V)

/-- The shared memory. -/
abbrev Mem (A : Type) (V : A → Type) := ∀ a : A, V a

section
variable {A : Type} {V : A → Type}

namespace Prog

/-- `p; q` -/
def seq : Prog A V → Prog A V → Prog A V
  | done, q => q
  | load a k, q => load a fun v => (k v).seq q
  | store a v k, q => store a v (k.seq q)
  | atomic a f k, q => atomic a f (k.seq q)

/-- `p₁; p₂; …` -/
def seqs : List (Prog A V) → Prog A V
  | [] => done
  | p :: ps => p.seq (seqs ps)

/-- `for (int i = 0; i < n; i++) body` inside one thread -/
def for' (n : Nat) (body : Nat → Prog A V) : Prog A V := seqs (tab n body)

variable [DecidableEq A]

/-- A thread running alone. -/
def run : Prog A V → Mem A V → Mem A V
  | done, m => m
  | load a k, m => (k (m a)).run m
  | store a v k, m => k.run (Function.update m a v)
  | atomic a f k, m => k.run (Function.update m a (f (m a)))

/-- One step of one thread. -/
inductive Step : Mem A V → Prog A V → Mem A V → Prog A V → Prop
  | load (m : Mem A V) (a : A) (k : V a → Prog A V) : Step m (load a k) m (k (m a))
  | store (m : Mem A V) (a : A) (v : V a) (k : Prog A V) : Step m (store a v k) (Function.update m a v) k
  | atomic (m : Mem A V) (a : A) (f : V a → V a) (k : Prog A V) :
      Step m (atomic a f k) (Function.update m a (f (m a))) k

end Prog

variable [DecidableEq A]

/-- A running parallel region: the memory and what every thread still has to do. -/
structure State (A : Type) (V : A → Type) where
  mem : Mem A V
  pool : List (Prog A V)

/-- Some thread makes a step. -/
inductive Step : State A V → State A V → Prop
  | mk (t : Nat) {m m' : Mem A V} {pool : List (Prog A V)} {p p' : Prog A V} (ht : pool[t]? = some p)
      (h : Prog.Step m p m' p') : Step ⟨m, pool⟩ ⟨m', pool.set t p'⟩

/-- Any number of steps of any threads: an interleaving. -/
abbrev Reach : State A V → State A V → Prop := Relation.ReflTransGen Step

/-- All threads have arrived at the barrier closing the region. -/
def Final (s : State A V) : Prop := ∀ p ∈ s.pool, p = Prog.done

/-- `#pragma omp parallel for` over `n` iterations with `T` threads; `own i` is the thread that gets iteration `i`
(any schedule: static, chunked, dynamic, guided).  A thread runs its iterations in increasing order. -/
def parallelFor (T : Nat) (own : Nat → Nat) (n : Nat) (body : Nat → Prog A V) : List (Prog A V) :=
  tab T fun t => Prog.seqs (((List.range n).filter fun i => own i = t).map body)

/-- Every iteration is given to one of the threads. -/
def Assigned (T : Nat) (own : Nat → Nat) (n : Nat) : Prop := ∀ i, i < n → own i < T

/-- The loop without the pragma. -/
def serialFor (n : Nat) (body : Nat → Prog A V) (m : Mem A V) : Mem A V := (Prog.for' n body).run m

/-- The region gives the result `R`: it cannot run forever, it does not get stuck before the barrier, and whenever it
arrives there the memory satisfies `R`. -/
structure Always (s : State A V) (R : Mem A V → Prop) : Prop where
  /-- no infinite interleaving -/
  terminates : Acc (fun b a : State A V => Step a b) s
  /-- no deadlock -/
  progress : ∀ s', Reach s s' → Final s' ∨ ∃ s'', Step s' s''
  /-- the result -/
  result : ∀ s', Reach s s' → Final s' → R s'.mem

/-- The program reads only locations of `ro` and `own`, and writes only locations of `own`; the former hold their initial
values `m₀` throughout. -/
def Conf (m₀ : Mem A V) (ro own : A → Prop) : Prog A V → Prop
  | .done => True
  | .load a k => (ro a ∧ Conf m₀ ro own (k (m₀ a))) ∨ (own a ∧ ∀ v, Conf m₀ ro own (k v))
  | .store a _ k => own a ∧ Conf m₀ ro own k
  | .atomic a _ k => own a ∧ Conf m₀ ro own k

/-- The threads in `sched` make one step each, in that order (for exhibiting interleavings). -/
def exec : List Nat → Mem A V → List (Prog A V) → Mem A V × List (Prog A V)
  | [], m, pool => (m, pool)
  | t :: ts, m, pool =>
    match pool[t]? with
    | some (.load a k) => exec ts m (pool.set t (k (m a)))
    | some (.store a v k) => exec ts (Function.update m a v) (pool.set t k)
    | some (.atomic a f k) => exec ts (Function.update m a (f (m a))) (pool.set t k)
    | some .done => exec ts m pool
    | none => exec ts m pool

/-- `p` has nothing left to do. -/
def Prog.isDone : Prog A V → Bool
  | .done => true
  | _ => false

end
end Verif.Par
