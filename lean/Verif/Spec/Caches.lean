import Verif.Model.Caches
import Verif.Spec.Mapping

/-! # Specification of the caches -/

namespace Spec
open Go

/-! ## Settings -/

namespace Settings

/-- Operations on the settings cache; keys are bytes. -/
inductive Op where
  | set (key : UInt8) (option : Nat)
  | get (key : UInt8)
  | slice
  | getCase (switchType : UInt8)
  | storeCase (switchType : UInt8) (v : Nat)
  | getCondition (condition : UInt8)
  | storeCondition (condition : UInt8) (v : Bool)

/-- What the client sees. -/
inductive Obs where
  | unit
  | affected (mappings conditions : Bool)
  | value (v : Nat)
  | values (l : List Nat)
  | case (v : Nat) (cached : Bool)
  | condition (v cached : Bool)
  | panic
deriving DecidableEq, Repr

/-- The settings as last written, and the values stored since the last write. -/
structure State where
  settings : List Nat
  numSwitches : Nat
  numConditions : Nat
  cases : Nat → Option Nat := fun _ => none
  conditions : Nat → Option Bool := fun _ => none

/-- Change one value of a function. -/
def put {α : Type} (f : Nat → Option α) (i : Nat) (v : α) : Nat → Option α :=
  fun j => if j = i then some v else f j

/-- The indices that have a bit when there are `n` bits in whole bytes. -/
def padded (n : Nat) : Nat := 8 * ((n + 7) / 8)

/-- Ideal behaviour. Switch types 254 and 255 always have case 0 and condition 255 always holds. -/
def step (s : State) : Op → Obs × State
  | .set k v => if k.toNat < s.settings.length then
      (.affected true true, { s with settings := s.settings.set k.toNat v, cases := fun _ => none
                                     conditions := fun _ => none })
    else (.panic, s)
  | .get k => (.value (s.settings.getD k.toNat 0), s)
  | .slice => (.values s.settings, s)
  | .getCase t =>
    if t.toNat ≥ 254 then (.case 0 true, s)
    else if t.toNat < padded s.numSwitches then
      (match s.cases t.toNat with | some v => .case v true | none => .case 0 false, s)
    else (.panic, s)
  | .storeCase t v =>
    if t.toNat < s.numSwitches then (.unit, { s with cases := put s.cases t.toNat v }) else (.panic, s)
  | .getCondition i =>
    if i.toNat = 255 then (.condition true true, s)
    else if i.toNat < padded s.numConditions then
      (match s.conditions i.toNat with | some v => .condition v true | none => .condition false false, s)
    else (.panic, s)
  | .storeCondition i v =>
    if i.toNat < padded s.numConditions then
      (.unit, { s with conditions := put s.conditions i.toNat v })
    else (.panic, s)

/-- The observations of a history, up to a panic. -/
def run (s : State) : List Op → List Obs
  | [] => []
  | op :: ops => match step s op with
    | (.panic, _) => [.panic]
    | (o, s') => o :: run s' ops

end Settings
end Spec

namespace CacheModel
open Spec.Settings

/-- One operation of the code. -/
def opStep (c : SettingsCache) : Op → Obs × SettingsCache
  | .set k v => match c.set k.toNat v with
    | .ok (c, m, r) => (.affected m r, c)
    | _ => (.panic, c)
  | .get k => match c.get k.toNat with
    | .ok v => (.value v, c)
    | _ => (.panic, c)
  | .slice => (.values c.settings, c)
  | .getCase t => match c.getMappingCase t.toNat with
    | .ok (v, b) => (.case v b, c)
    | _ => (.panic, c)
  | .storeCase t v => match c.cacheMappingCase t.toNat v with
    | .ok c => (.unit, c)
    | _ => (.panic, c)
  | .getCondition i => match c.getRewriteCondition i.toNat with
    | .ok (v, b) => (.condition v b, c)
    | _ => (.panic, c)
  | .storeCondition i v => match c.cacheRewriteCondition i.toNat v with
    | .ok c => (.unit, c)
    | _ => (.panic, c)

/-- A history of the code, up to a panic. -/
def opRun (c : SettingsCache) : List Op → List Obs
  | [] => []
  | op :: ops => match opStep c op with
    | (.panic, _) => [.panic]
    | (o, c') => o :: opRun c' ops

end CacheModel

/-! ## Mapping -/

namespace Spec.Lookup
open Go FontModel CacheModel

/-- Lookups through the mapping cache and directly with the settings cache; settings changes, each
followed by a drop; drops; resets with the same font; resets with another font and its new settings. -/
inductive Op where
  | lookup (codePoint : Int)
  | direct (codePoint : Int)
  | change (key : UInt8) (option : Nat)
  | drop
  | reset
  | newFont (f : Font)

/-- What the client sees of a group through its methods: where it is, its case, whether it is direct. -/
inductive Obs where
  | unit
  | missing
  | group (offset caseBranch : Nat) (direct : Bool)
  | panic
deriving DecidableEq, Repr

def view : Option Font.Group → Obs
  | none => .missing
  | some g => .group g.offset g.caseBranch g.direct

/-- The code. -/
def codeStep (m : MappingCache) (s : SettingsCache) : Op → Obs × MappingCache × SettingsCache
  | .lookup c => match m.get c s with
    | .ok (m, s, g) => (view g, m, s)
    | _ => (.panic, m, s)
  | .direct c => match utf8WithCache m.font (runeBits c) s with
    | .ok (s, g) => (view g, m, s)
    | _ => (.panic, m, s)
  | .change k v => match s.set k.toNat v with
    | .ok (s, _) => (.unit, m.dropAll, s)
    | _ => (.panic, m, s)
  | .drop => (.unit, m.dropAll, s)
  | .reset => (.unit, m.reset m.font, s)
  | .newFont f => match SettingsCache.new f with
    | .ok s => (.unit, m.reset f, s)
    | _ => (.panic, m, s)

def codeRun (m : MappingCache) (s : SettingsCache) : List Op → List Obs
  | [] => []
  | op :: ops => match codeStep m s op with
    | (.panic, _) => [.panic]
    | (o, m, s) => o :: codeRun m s ops

/-- Without caches: every lookup is a direct lookup with the current settings. -/
def step (f : Font) (settings : List Nat) : Op → Obs × Font × List Nat
  | .lookup c => match f.utf8 (runeBits c) settings with
    | .ok g => (view g, f, settings)
    | _ => (.panic, f, settings)
  | .direct c => match f.utf8 (runeBits c) settings with
    | .ok g => (view g, f, settings)
    | _ => (.panic, f, settings)
  | .change k v => if k.toNat < settings.length then (.unit, f, settings.set k.toNat v)
    else (.panic, f, settings)
  | .drop => (.unit, f, settings)
  | .reset => (.unit, f, settings)
  | .newFont f' => match f'.numSettings, f'.numSwitchTypes, f'.numConditions with
    | .ok n, .ok _, .ok _ => (.unit, f', List.replicate n 0)
    | _, _, _ => (.panic, f, settings)

def run (f : Font) (settings : List Nat) : List Op → List Obs
  | [] => []
  | op :: ops => match step f settings op with
    | (.panic, _) => [.panic]
    | (o, f, settings) => o :: run f settings ops

/-- The code state after a history; a panicking operation changes nothing. -/
def codeState (m : MappingCache) (s : SettingsCache) : List Op → MappingCache × SettingsCache
  | [] => (m, s)
  | op :: ops => codeState (codeStep m s op).2.1 (codeStep m s op).2.2 ops

/-- Lookups of code points in order. -/
def lookups (m : MappingCache) (s : SettingsCache) : List Int → Res (MappingCache × SettingsCache)
  | [] => .ok (m, s)
  | c :: cs => do
    let (m, s, _) ← m.get c s
    lookups m s cs

/-- The number of drops in a history. -/
def drops : List Op → Nat
  | [] => 0
  | .drop :: ops => drops ops + 1
  | .change _ _ :: ops => drops ops + 1
  | _ :: ops => drops ops

end Spec.Lookup
