/-!
# Threads on a shared array

`nb.prange` loops are modelled as a machine with a shared array: every iteration (or
block of iterations given to a core) is a thread with its own registers `ρ` and a list
of atomic loads and stores; a schedule picks at each moment the thread that makes the
next access.  So interleavings *inside* `ret[g] += x` are included.
-/
namespace Verif.Par

/-- one memory access: `load c f` combines `mem[c]` into the registers, `store c g`
writes `g registers` to `mem[c]` -/
inductive Act (β ρ : Type) where
  | load (c : Nat) (f : ρ → β → ρ)
  | store (c : Nat) (g : ρ → β)

structure Thread (β ρ : Type) where
  reg : ρ
  todo : List (Act β ρ)

structure Mach (β ρ : Type) where
  mem : List β
  threads : List (Thread β ρ)

variable {β ρ : Type}

/-- effect of one access on memory and registers (an access outside the array, which no
program here makes, has no effect) -/
def access (s : List β × ρ) : Act β ρ → List β × ρ
  | .load c f =>
    match s.1[c]? with
    | some v => (s.1, f s.2 v)
    | none => s
  | .store c g => (s.1.set c (g s.2), s.2)

/-- thread `t` makes its next access; nothing happens when it is finished -/
def stepThread (m : Mach β ρ) (t : Nat) : Mach β ρ :=
  match m.threads[t]? with
  | some ⟨r, a :: rest⟩ =>
    let s := access (m.mem, r) a
    ⟨s.1, m.threads.set t ⟨s.2, rest⟩⟩
  | _ => m

/-- run under a schedule -/
def runSched (m : Mach β ρ) (sched : List Nat) : Mach β ρ := sched.foldl stepThread m

/-- all threads finished -/
def Done (m : Mach β ρ) : Prop := ∀ th ∈ m.threads, th.todo = []

end Verif.Par
