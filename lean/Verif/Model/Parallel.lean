import Verif.Model.Basic
import Mathlib.Logic.Function.Basic
import Mathlib.Logic.Relation

/-!
# Concurrent execution of loop iterations (#pragma omp parallel for)

The iterations of a parallel loop are programs that read and write shared memory; their steps are
interleaved arbitrarily.  This covers every schedule and number of threads of
`#pragma omp parallel for schedule(dynamic, chunk_size)` (_pyco_tree/kd_tree.hpp:128, 158, 193, 226, 260):
a thread that runs several iterations one after the other is one of the interleavings.  Each read or write
of an element is one step; the theorems show that no two iterations ever access the same element, so a
smaller granularity of the accesses makes no difference.
-/

namespace Pico

/-- A program that accesses memory; its other computations are part of the continuations. -/
inductive Prog (τ : Type) where
  | done
  | read (a : Nat) (next : τ → Prog τ)
  | write (a : Nat) (v : τ) (next : Prog τ)

namespace Prog
variable {τ : Type}

/-- Execution without interference. -/
def run : Prog τ → (Nat → τ) → Nat → τ
  | done, m => m
  | read a next, m => (next (m a)).run m
  | write a v next, m => next.run (Function.update m a v)

/-- The program only accesses addresses in `F`. -/
def Within (F : Nat → Prop) : Prog τ → Prop
  | done => True
  | read a next => F a ∧ ∀ v, (next v).Within F
  | write a _ next => F a ∧ next.Within F

/-- The address of the next access and whether it is a write. -/
def access : Prog τ → Option (Nat × Bool)
  | done => none
  | read a _ => some (a, false)
  | write a _ _ => some (a, true)

end Prog

/-- The iterations that are still to be executed, and the memory. -/
structure ParState (τ : Type) where
  progs : Nat → Prog τ
  mem : Nat → τ

/-- Some iteration makes a step. -/
inductive ParStep {τ : Type} : ParState τ → ParState τ → Prop
  | read (s : ParState τ) (i a : Nat) (next : τ → Prog τ) (h : s.progs i = .read a next) :
      ParStep s ⟨Function.update s.progs i (next (s.mem a)), s.mem⟩
  | write (s : ParState τ) (i a : Nat) (v : τ) (next : Prog τ) (h : s.progs i = .write a v next) :
      ParStep s ⟨Function.update s.progs i next, Function.update s.mem a v⟩

/-- Any number of steps. -/
abbrev ParExec {τ : Type} : ParState τ → ParState τ → Prop := Relation.ReflTransGen ParStep

/-- All iterations are finished: the end of the parallel loop. -/
def ParState.Finished {τ : Type} (s : ParState τ) : Prop := ∀ i, s.progs i = .done

end Pico
