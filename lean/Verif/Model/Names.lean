import Verif.Go

/-!
# Model of the name validators of `internal/parsing_buffer.go`
-/

namespace Names
open Go

/-- `internal/parsing_buffer.go`, `isAZaz09`. -/
def isAZaz09 (c : UInt8) : Bool :=
  (c ≥ 97 && c ≤ 122) || (c ≥ 65 && c ≤ 90) || (c ≥ 48 && c ≤ 57)

/-- Loop of `internal/parsing_buffer.go:195-208`; returns the final `prevIsHyphen`. The error value
built at line 202 (consecutive hyphens) is discarded by the code, so nothing happens there. -/
def basicNameLoop : Bytes → (prevIsHyphen : Bool) → Res Bool
  | [], prevIsHyphen => .ok prevIsHyphen
  | c :: rest, _ =>
    if isAZaz09 c then basicNameLoop rest false
    else if c = 45 then basicNameLoop rest true
    else .err "basic name contains invalid character"

/-- `internal/parsing_buffer.go:189-215`, `ValidateBasicName`. -/
def validateBasicName (name : Bytes) : Res Unit :=
  if name.length > 32 then .err "basic name can't exceed 32 characters"
  else if name.length = 0 then .err "basic name can't be empty"
  else do
    let c ← idx name 0
    if c = 45 then .err "basic name can't start with a hyphen"
    let prevIsHyphen ← basicNameLoop name false
    if prevIsHyphen then .err "basic name can't end with a hyphen"

/-- Loop of `internal/parsing_buffer.go:228-231`. -/
def spacedNameLoop : Bytes → Res Unit
  | [] => .ok ()
  | c :: rest =>
    if isAZaz09 c || c = 45 || c = 32 then spacedNameLoop rest
    else .err "name contains invalid character"

/-- `internal/parsing_buffer.go:224-234`, `validateBasicSpacedName`. -/
def validateBasicSpacedName (name : Bytes) : Res Unit :=
  if name.length > 32 then .err "name can't exceed 32 characters"
  else if name.length = 0 then .err "name can't be empty"
  else spacedNameLoop name

end Names
