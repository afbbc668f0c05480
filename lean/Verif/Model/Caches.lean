import Verif.Model.Builder

/-!
# Model of `settings_cache.go` and `mapping_cache.go`, and of the cached lookup of `font.go`

Simplifications. The slice returned by `UnsafeSlice` is documented as read only: it is modelled by
its value. Pointers to entries are indices. The order of assignments is that of the code. After a
panic there is no state.
-/

namespace CacheModel
open Go Helpers FontModel
open BuilderModel (GoMap)

/-! ## `settings_cache.go` -/

/-- `settings_cache.go:12-28`. -/
structure SettingsCache where
  mappingRelevance : BoolList
  conditionRelevance : BoolList
  caseFlags : BoolList
  conditionFlags : BoolList
  cases : List Nat
  conditions : BoolList
  settings : List Nat
deriving DecidableEq, Repr

namespace SettingsCache

/-- `settings_cache.go:30-53`, `NewSettingsCache`. -/
def new (f : Font) : Res SettingsCache := do
  let numSettings ← f.numSettings
  let numSwitchTypes ← f.numSwitchTypes
  let numConditions ← f.numConditions
  return {
    settings := List.replicate numSettings 0
    mappingRelevance := (BoolList.new numSettings).setAllTrue
    conditionRelevance := (BoolList.new numSettings).setAllTrue
    caseFlags := BoolList.new numSwitchTypes
    cases := List.replicate numSwitchTypes 0
    conditionFlags := BoolList.new numConditions
    conditions := BoolList.new numConditions }

/-- `settings_cache.go:60-63`, `Get`. -/
def get (c : SettingsCache) (key : Nat) : Res Nat :=
  if c.settings.length ≤ key then .ok 0 else idx c.settings key

/-- `settings_cache.go:66-80`, `Set`. -/
def set (c : SettingsCache) (key option : Nat) : Res (SettingsCache × Bool × Bool) := do
  let settings ← setAt c.settings key option
  let c := { c with settings := settings }
  let m ← c.mappingRelevance.get key
  let c := if m then { c with caseFlags := c.caseFlags.setAllFalse } else c
  let r ← c.conditionRelevance.get key
  let c := if r then { c with conditionFlags := c.conditionFlags.setAllFalse } else c
  return (c, m, r)

/-- `settings_cache.go:84-88`, `GetMappingCase`. -/
def getMappingCase (c : SettingsCache) (switchType : Nat) : Res (Nat × Bool) :=
  if switchType ≥ 254 then .ok (0, true) else do
    let isSet ← c.caseFlags.getU8 (byte switchType)
    if !isSet then return (0, false) else
    let v ← idx c.cases switchType
    return (v, true)

/-- `settings_cache.go:90-93`, `CacheMappingCase`. -/
def cacheMappingCase (c : SettingsCache) (switchType result : Nat) : Res SettingsCache := do
  let flags ← c.caseFlags.setU8 (byte switchType) true
  let cases ← setAt c.cases switchType result
  return { c with caseFlags := flags, cases := cases }

/-- `settings_cache.go:98-102`, `GetRewriteCondition`. -/
def getRewriteCondition (c : SettingsCache) (condition : Nat) : Res (Bool × Bool) :=
  if condition = 255 then .ok (true, true) else do
    let isSet ← c.conditionFlags.getU8 (byte condition)
    if !isSet then return (false, false) else
    let v ← c.conditions.getU8 (byte condition)
    return (v, true)

/-- `settings_cache.go:104-107`, `CacheRewriteCondition`. -/
def cacheRewriteCondition (c : SettingsCache) (condition : Nat) (satisfied : Bool) :
    Res SettingsCache := do
  let flags ← c.conditionFlags.setU8 (byte condition) true
  let bools ← c.conditions.setU8 (byte condition) satisfied
  return { c with conditionFlags := flags, conditions := bools }

end SettingsCache

/-! ## `font.go:779-851` -/

/-- `font.go:825-832`: the case of a switch, from the cache or evaluated and stored. -/
def cachedCase (f : Font) (t : Nat) (c : SettingsCache) : Res (SettingsCache × Nat) :=
  if t ≠ 254 then do
    let (v, cached) ← c.getMappingCase t
    if cached then return (c, v) else
    let v ← f.evaluateSwitch t c.settings
    let c ← c.cacheMappingCase t v
    return (c, v)
  else .ok (c, 0)

/-- `font.go:779-851`, `Utf8WithCache`, for a code point given as the `uint32` of line 781. -/
def utf8WithCache (f : Font) (target : Nat) (c : SettingsCache) :
    Res (SettingsCache × Option Font.Group) := do
  match ← f.findEntry target with
  | none => return (c, none)
  | some (t, s, e, maps) =>
    if t = 255 then return (c, some { offset := maps + s, switchType := t, direct := true }) else
    let (c, v) ← cachedCase f t c
    let s ← Font.staircase f.data maps e v s
    return (c, some { offset := maps + s, switchType := t, caseBranch := v })

/-! ## `mapping_cache.go` -/

/-- `mapping_cache.go:7`. -/
def noEntry : Nat := 65535

/-- `mapping_cache.go:9-20`. -/
structure Entry where
  drop : Nat := 0
  prev : Nat := 0
  next : Nat := 0
  codePoint : Int := 0
  offset : Nat := 0
  caseBranch : Nat := 0
  direct : Bool := false
  switchType : Nat := 0
deriving DecidableEq, Repr

namespace Entry

/-- `mapping_cache.go:22-29`, `ToMappingGroup`: the switch type is left at zero. -/
def toGroup (e : Entry) : Font.Group :=
  { offset := e.offset, switchType := 0, caseBranch := e.caseBranch, direct := e.direct }

/-- `mapping_cache.go:31-37`, `Update`. -/
def update (e : Entry) (dropCounter : Nat) (g : Font.Group) : Entry :=
  { e with drop := dropCounter, offset := g.offset, switchType := g.switchType
           caseBranch := g.caseBranch, direct := g.direct }

end Entry

/-- `mapping_cache.go:44-51`. -/
structure MappingCache where
  font : Font
  drop : Nat := 0
  mru : Nat := noEntry
  lru : Nat := 0
  cached : GoMap Int Nat := []
  entries : List Entry
deriving DecidableEq, Repr

/-- Assignment to fields of `entries[i]`. -/
def modAt (l : List Entry) (i : Nat) (g : Entry → Entry) : Res (List Entry) := do
  let e ← idx l i
  setAt l i (g e)

namespace MappingCache

/-- `mapping_cache.go:81-89`, `initEntriesLinking` on cleared entries; `i` goes up to `size`, at most
65000. -/
def linked (size : Nat) : List Entry :=
  (List.range size).map fun i =>
    { prev := if i = 0 then noEntry else i - 1, next := if i = size - 1 then noEntry else i + 1 }

/-- `mapping_cache.go:54-69`, `NewMappingCache`. -/
def new (font : Font) (size : Int) : Res MappingCache :=
  if size ≤ 0 then .panic "mapping cache size must be positive"
  else if size > 65000 then .panic "mapping cache size can't exceed 65k"
  else .ok { font := font, entries := linked size.toNat }

/-- `mapping_cache.go:72-79`, `Reset`: the drop counter is kept. -/
def reset (c : MappingCache) (font : Font) : MappingCache :=
  { c with font := font, mru := noEntry, lru := 0, cached := [], entries := linked c.entries.length }

/-- `mapping_cache.go:92-96`, `Drop`. -/
def dropAll (c : MappingCache) : MappingCache := { c with drop := u32 (c.drop + 1) }

/-- `mapping_cache.go:139-163`, `updateMRU`. -/
def updateMRU (c : MappingCache) (index : Nat) : Res MappingCache := do
  let entry ← idx c.entries index
  if entry.next = noEntry then return c else
  if entry.prev = noEntry then
    let es ← modAt c.entries entry.next fun e => { e with prev := noEntry }
    let es ← modAt es index fun e => { e with next := noEntry, prev := c.mru }
    let es ← (if c.mru ≠ noEntry then modAt es c.mru fun e => { e with next := index } else .ok es)
    return { c with lru := entry.next, entries := es, mru := index }
  else
    let es ← (if c.mru ≠ noEntry then modAt c.entries c.mru fun e => { e with next := index }
      else .ok c.entries)
    let es ← modAt es entry.prev fun e => { e with next := entry.next }
    let es ← modAt es entry.next fun e => { e with prev := entry.prev }
    let es ← modAt es index fun e => { e with next := noEntry, prev := c.mru }
    return { c with entries := es, mru := index }

/-- `mapping_cache.go:99-137`, `Get`. -/
def get (c : MappingCache) (codePoint : Int) (s : SettingsCache) :
    Res (MappingCache × SettingsCache × Option Font.Group) := do
  match c.cached.get codePoint with
  | some i =>
    let _ ← idx c.entries i
    let c ← c.updateMRU i
    let entry ← idx c.entries i
    if entry.drop = c.drop then return (c, s, some entry.toGroup) else
    let (caseBranch, cached) ← s.getMappingCase entry.switchType
    if cached ∧ caseBranch = entry.caseBranch then
      let es ← setAt c.entries i { entry with drop := c.drop }
      return ({ c with entries := es }, s, some entry.toGroup)
    else
      match ← utf8WithCache c.font (codePoint % 4294967296).toNat s with
      | (_, none) => .panic "broken code"
      | (s, some g) =>
        let es ← setAt c.entries i (entry.update c.drop g)
        return ({ c with entries := es }, s, some g)
  | none =>
    match ← utf8WithCache c.font (codePoint % 4294967296).toNat s with
    | (s, none) => return (c, s, none)
    | (s, some g) =>
      let entry ← idx c.entries c.lru
      let es ← setAt c.entries c.lru { entry.update c.drop g with codePoint := codePoint }
      let cached := (c.cached.delete entry.codePoint).set codePoint c.lru
      let c := { c with entries := es, cached := cached }
      let c ← c.updateMRU c.lru
      return (c, s, some g)

end MappingCache
end CacheModel
