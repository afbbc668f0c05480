/-!
# Specification: a bounded queue with a lookahead cursor
-/

namespace Spec.Deque

/-- Client operations. `setCapacity` carries the unspecified memory contents exposed by growing. -/
inductive Op (α : Type) where
  | push (a : α)
  | popHead
  | popTail
  | head
  | tail
  | peekAhead
  | discardPeeks
  | confirmPeeks
  | clear
  | size
  | isEmpty
  | capacity
  | setCapacity (c : Nat) (junk : List α)
  | setMinCapacity (c : Nat) (junk : List α)

/-- Observations. -/
inductive Obs (α : Type) where
  | unit
  | elem (a : α)
  | peek (a : Option α) (more : Bool)
  | nat (n : Nat)
  | bool (b : Bool)
  | panic
deriving DecidableEq, Repr

/-- Ideal state: contents in order, capacity, number of elements peeked past the head, and whether
no element was removed since the buffer was created or cleared. -/
structure State (α : Type) where
  items : List α
  cap : Nat
  peeks : Nat
  fresh : Bool

variable {α : Type}

/-- Ideal step; `none` when the operation is left unspecified:
* removing elements while peeks are outstanding;
* capacities above `maxCap`, or growing with less memory than needed (not a real case);
* shrinking an empty buffer that has been used since the last clear (see C05). -/
def step (maxCap : Nat) (s : State α) : Op α → Option (Obs α × State α)
  | .push a =>
    if s.items.length < s.cap then some (.unit, { s with items := s.items ++ [a] })
    else some (.panic, s)
  | .popHead =>
    match s.items with
    | [] => some (.panic, s)
    | x :: xs => if s.peeks = 0 then some (.elem x, { s with items := xs, fresh := false }) else none
  | .popTail =>
    match s.items.getLast? with
    | none => some (.panic, s)
    | some x => if s.peeks = 0 then some (.elem x, { s with items := s.items.dropLast }) else none
  | .head => match s.items.head? with
    | none => some (.panic, s)
    | some x => some (.elem x, s)
  | .tail => match s.items.getLast? with
    | none => some (.panic, s)
    | some x => some (.elem x, s)
  | .peekAhead =>
    if s.peeks + 1 < s.items.length then
      some (.peek s.items[s.peeks + 1]? true, { s with peeks := s.peeks + 1 })
    else some (.peek s.items.getLast? false, s)
  | .discardPeeks => some (.unit, { s with peeks := 0 })
  | .confirmPeeks => some (.unit, { s with items := s.items.drop s.peeks, peeks := 0, fresh := false })
  | .clear => some (.unit, { s with items := [], peeks := 0, fresh := true })
  | .size => some (.nat s.items.length, s)
  | .isEmpty => some (.bool s.items.isEmpty, s)
  | .capacity => some (.nat s.cap, s)
  | .setCapacity c junk =>
    if c = s.cap then some (.bool true, s)
    else if c < s.items.length then some (.bool false, s)
    else if maxCap < c ∨ junk.length < c - s.cap then none
    else if s.items = [] ∧ s.fresh = false ∧ c < s.cap then none
    else some (.bool true, { s with cap := c })
  | .setMinCapacity c junk =>
    if c ≤ s.cap then some (.bool true, s)
    else if maxCap < c ∨ junk.length < c - s.cap then none
    else some (.bool true, { s with cap := c })

/-- Observations of a history (ends at a panic); `none` if something is unspecified. -/
def run (maxCap : Nat) (s : State α) : List (Op α) → Option (List (Obs α))
  | [] => some []
  | op :: ops => match step maxCap s op with
    | none => none
    | some (.panic, _) => some [.panic]
    | some (o, s') => (run maxCap s' ops).map (o :: ·)

/-- Ideal queue after a history without panics. -/
def final (maxCap : Nat) (s : State α) : List (Op α) → Option (State α)
  | [] => some s
  | op :: ops => match step maxCap s op with
    | none => none
    | some (.panic, _) => none
    | some (_, s') => final maxCap s' ops

end Spec.Deque
