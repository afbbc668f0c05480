/-!
# Specification of a list of booleans (independent of the model)
-/

namespace Spec.BoolList

/-- Operations a client performs. -/
inductive Op where
  | push (v : Bool)
  | get (i : Int)
  | set (i : Int) (v : Bool)
  | getU8 (i : UInt8)
  | setU8 (i : UInt8) (v : Bool)
  | setAllTrue
  | setAllFalse

/-- What the client sees: nothing, a boolean, or a panic (which ends the history). -/
inductive Obs where
  | unit
  | bool (b : Bool)
  | panic
deriving DecidableEq, Repr

/-- Ideal behaviour on a plain list. `none`: the operation is not specified for this state (the
`U8` variants are documented as unchecked: they need an index below the size). -/
def step (l : List Bool) : Op → Option (Obs × List Bool)
  | .push v => some (.unit, l ++ [v])
  | .get i => if 0 ≤ i then
      match l[i.toNat]? with
      | some b => some (.bool b, l)
      | none => some (.panic, l)
    else some (.panic, l)
  | .set i v => if 0 ≤ i ∧ i < l.length then some (.unit, l.set i.toNat v) else some (.panic, l)
  | .getU8 i => match l[i.toNat]? with
      | some b => some (.bool b, l)
      | none => none
  | .setU8 i v => if i.toNat < l.length then some (.unit, l.set i.toNat v) else none
  | .setAllTrue => some (.unit, List.replicate l.length true)
  | .setAllFalse => some (.unit, List.replicate l.length false)

/-- Observations of a history; stops after a panic. `none` when some operation is unspecified. -/
def run (l : List Bool) : List Op → Option (List Obs)
  | [] => some []
  | op :: ops => match step l op with
    | none => none
    | some (.panic, _) => some [.panic]
    | some (o, l') => (run l' ops).map (o :: ·)

end Spec.BoolList
