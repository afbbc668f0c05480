import Verif.Go

/-!
# Model of `internal/single_instance_pool.go` as a transition system

Each atomic access of the shared memory is one step; any number of goroutines (numbered by `Nat`)
may be interleaved in any way.
-/

namespace Pool

/-- Addresses: the pool's own instance, or the `n`-th heap allocation. -/
inductive Ptr where
  | shared
  | fresh (n : Nat)
deriving DecidableEq, Repr

/-- Where a goroutine is in the code. -/
inductive PC where
  /-- not inside a pool call -/
  | idle
  /-- inside `Retrieve` after losing the compare-and-swap (lines 20-22 still to run) -/
  | alloc
  /-- inside `Release(p)` (lines 27-31 still to run) -/
  | releasing (p : Ptr)
deriving DecidableEq, Repr

/-- A goroutine: program counter and the instances it got and has not passed to `Release`. -/
structure Goroutine where
  pc : PC
  held : List Ptr
deriving DecidableEq, Repr

/-- Shared memory (`inUse`, lines 12-15), the allocator, and all goroutines. -/
structure State where
  inUse : Nat
  nextAlloc : Nat
  gs : Nat → Goroutine

/-- Program start: zero value of the pool. -/
def init : State := ⟨0, 0, fun _ => ⟨.idle, []⟩⟩

/-- What the scheduler can do. -/
inductive Action where
  /-- goroutine `t` calls `Retrieve` and runs the compare-and-swap of line 18 -/
  | retrieve (t : Nat)
  /-- goroutine `t` allocates an untracked instance (lines 21-22) -/
  | alloc (t : Nat)
  /-- goroutine `t` calls `Release(p)` -/
  | release (t : Nat) (p : Ptr)
  /-- goroutine `t` runs the body of `Release` (the pointer comparison of line 27 involves no
  shared memory; the compare-and-swap of line 28 is the atomic access) -/
  | finish (t : Nat)
deriving DecidableEq, Repr

/-- Update of one goroutine. -/
def State.set (s : State) (t : Nat) (g : Goroutine) : State :=
  { s with gs := fun u => if u = t then g else s.gs u }

/-- One step; `none` when the action is not enabled (for `release`: the goroutine does not hold
that instance, i.e. the client would be misusing the pool). -/
def step (s : State) : Action → Option (Res State)
  | .retrieve t =>
    let g := s.gs t
    if g.pc = .idle then
      -- lines 17-19: CompareAndSwap(&inUse, 0, 1)
      if s.inUse = 0 then
        some (.ok (({ s with inUse := 1 }).set t { g with held := .shared :: g.held }))
      else some (.ok (s.set t { g with pc := .alloc }))
    else none
  | .alloc t =>
    let g := s.gs t
    if g.pc = .alloc then
      some (.ok (({ s with nextAlloc := s.nextAlloc + 1 }).set t
        ⟨.idle, .fresh s.nextAlloc :: g.held⟩))
    else none
  | .release t p =>
    let g := s.gs t
    if g.pc = .idle ∧ p ∈ g.held then
      some (.ok (s.set t ⟨.releasing p, g.held.erase p⟩))
    else none
  | .finish t =>
    let g := s.gs t
    match g.pc with
    | .releasing p =>
      -- line 27: instance == &self.instance
      if p = .shared then
        -- line 28: CompareAndSwap(&inUse, 1, 0)
        if s.inUse = 1 then some (.ok (({ s with inUse := 0 }).set t { g with pc := .idle }))
        else some (.panic "broken code")
      else some (.ok (s.set t { g with pc := .idle }))
    | _ => none

/-- Run a schedule; actions that are not enabled are skipped. -/
def run (s : State) : List Action → Res State
  | [] => .ok s
  | a :: as => match step s a with
    | none => run s as
    | some (.ok s') => run s' as
    | some r => r

end Pool
