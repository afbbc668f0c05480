/-!
# The fragment of Go semantics used by the models

A Go call can return a value, return an `error`, or panic. `Res` keeps the three apart, so
"never panics" is a statement to prove rather than an artefact of total functions.
-/

/-- Outcome of a Go call: a value, a returned `error`, or a panic. -/
inductive Res (α : Type u) where
  | ok (a : α)
  | err (msg : String)
  | panic (msg : String)
deriving DecidableEq, Repr

namespace Res

/-- Sequencing: errors are propagated (`if err != nil { return err }`), panics unwind. -/
@[inline] def bind {α : Type u} {β : Type v} (x : Res α) (f : α → Res β) : Res β :=
  match x with
  | ok a => f a
  | err e => err e
  | panic e => panic e

instance : Monad Res where
  pure := ok
  bind := bind

@[simp] theorem pure_eq {α : Type u} (a : α) : (pure a : Res α) = ok a := rfl
@[simp] theorem ok_bind {α β : Type u} (a : α) (f : α → Res β) : (ok a >>= f) = f a := rfl
@[simp] theorem err_bind {α β : Type u} (e : String) (f : α → Res β) :
    ((err e : Res α) >>= f) = err e := rfl
@[simp] theorem panic_bind {α β : Type u} (e : String) (f : α → Res β) :
    ((panic e : Res α) >>= f) = panic e := rfl

instance : LawfulMonad Res := LawfulMonad.mk'
  (id_map := by intro α x; cases x <;> rfl)
  (pure_bind := by intros; rfl)
  (bind_assoc := by intro α β γ x f g; cases x <;> rfl)

/-- The call returned a value. -/
def isOk {α : Type u} : Res α → Bool
  | ok _ => true
  | _ => false

/-- The call returned a Go `error`. -/
def isErr {α : Type u} : Res α → Bool
  | err _ => true
  | _ => false

/-- The call panicked. -/
def isPanic {α : Type u} : Res α → Bool
  | panic _ => true
  | _ => false

@[simp] theorem isOk_ok {α : Type u} (a : α) : (ok a).isOk = true := rfl
@[simp] theorem isOk_err {α : Type u} (e : String) : (err e : Res α).isOk = false := rfl
@[simp] theorem isOk_panic {α : Type u} (e : String) : (panic e : Res α).isOk = false := rfl
@[simp] theorem isErr_ok {α : Type u} (a : α) : (ok a).isErr = false := rfl
@[simp] theorem isErr_err {α : Type u} (e : String) : (err e : Res α).isErr = true := rfl
@[simp] theorem isErr_panic {α : Type u} (e : String) : (panic e : Res α).isErr = false := rfl
@[simp] theorem isPanic_ok {α : Type u} (a : α) : (ok a).isPanic = false := rfl
@[simp] theorem isPanic_err {α : Type u} (e : String) : (err e : Res α).isPanic = false := rfl
@[simp] theorem isPanic_panic {α : Type u} (e : String) : (panic e : Res α).isPanic = true := rfl

theorem bind_eq_ok {α β : Type u} {x : Res α} {f : α → Res β} {b : β} :
    (x >>= f) = ok b ↔ ∃ a, x = ok a ∧ f a = ok b := by
  cases x <;> simp

theorem bind_isPanic_false {α β : Type u} {x : Res α} {f : α → Res β}
    (hx : x.isPanic = false) (hf : ∀ a, x = ok a → (f a).isPanic = false) :
    (x >>= f).isPanic = false := by
  cases x <;> simp_all

end Res

/-- Bytes of a Go `[]byte` or `string`. -/
abbrev Bytes := List UInt8

namespace Go

/-- Go index expression `l[i]` with a non-negative index: panics when out of range. -/
def idx {α : Type u} (l : List α) (i : Nat) : Res α :=
  match l[i]? with
  | some a => .ok a
  | none => .panic "index out of range"

/-- Go assignment `l[i] = v`: panics when out of range. -/
def setAt {α : Type u} (l : List α) (i : Nat) (v : α) : Res (List α) :=
  if i < l.length then .ok (l.set i v) else .panic "index out of range"

/-- Go slice expression `l[lo:hi]`. (Go allows `hi` up to the capacity; the models take the
capacity to be the length.) -/
def slice {α : Type u} (l : List α) (lo hi : Nat) : Res (List α) :=
  if lo ≤ hi ∧ hi ≤ l.length then .ok ((l.take hi).drop lo) else .panic "slice bounds out of range"

/-- Go slice expression `l[lo:]`. -/
def sliceFrom {α : Type u} (l : List α) (lo : Nat) : Res (List α) :=
  if lo ≤ l.length then .ok (l.drop lo) else .panic "slice bounds out of range"

/-- Conversion/arithmetic wrap to `uint8`. -/
def u8 (n : Nat) : Nat := n % 256
/-- Conversion/arithmetic wrap to `uint16`. -/
def u16 (n : Nat) : Nat := n % 65536
/-- Conversion/arithmetic wrap to `uint32`. -/
def u32 (n : Nat) : Nat := n % 4294967296
/-- `uint8` subtraction. -/
def sub8 (a b : Nat) : Nat := (a + 256 - b) % 256
/-- `uint16` subtraction. -/
def sub16 (a b : Nat) : Nat := (a + 65536 - b) % 65536
/-- `uint32` subtraction. -/
def sub32 (a b : Nat) : Nat := (a + 4294967296 - b) % 4294967296
/-- `byte(n)`. -/
def byte (n : Nat) : UInt8 := UInt8.ofNat n

theorem idx_eq_ok {α : Type u} {l : List α} {i : Nat} {a : α} :
    idx l i = .ok a ↔ l[i]? = some a := by
  unfold idx; cases l[i]? <;> simp

theorem idx_lt {α : Type u} {l : List α} {i : Nat} (h : i < l.length) : idx l i = .ok l[i] := by
  simp [idx, h]

theorem idx_ge {α : Type u} {l : List α} {i : Nat} (h : l.length ≤ i) :
    idx l i = .panic "index out of range" := by
  simp [idx, h]

theorem setAt_lt {α : Type u} {l : List α} {i : Nat} {v : α} (h : i < l.length) :
    setAt l i v = .ok (l.set i v) := by
  simp [setAt, h]

theorem byte_toNat (n : Nat) : (byte n).toNat = n % 256 := by
  simp [byte]

end Go
