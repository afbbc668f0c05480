import Verif.Go

/-! # The header of a font, as described by the format -/

namespace Spec

/-- `k` bytes, least significant first. -/
def le : Nat → Nat → Bytes
  | 0, _ => []
  | k + 1, v => UInt8.ofNat (v % 256) :: le k (v / 256)

/-- A date: year, month, day. -/
structure YMD where
  year : Nat
  month : Nat
  day : Nat
deriving DecidableEq, Repr

def YMD.bytes (d : YMD) : Bytes := le 2 d.year ++ le 1 d.month ++ le 1 d.day
def YMD.Fits (d : YMD) : Prop := d.year < 65536 ∧ d.month < 256 ∧ d.day < 256

structure Header where
  format : Nat
  id : Nat
  major : Nat
  minor : Nat
  first : YMD
  majorDate : YMD
  minorDate : YMD
  name : Bytes
  family : Bytes
  author : Bytes
  about : Bytes
deriving DecidableEq, Repr

/-- The fields fit in their place. -/
structure Header.Fits (h : Header) : Prop where
  format : h.format < 4294967296
  id : h.id < 18446744073709551616
  major : h.major < 65536
  minor : h.minor < 65536
  first : h.first.Fits
  majorDate : h.majorDate.Fits
  minorDate : h.minorDate.Fits
  name : h.name.length ≤ 255
  family : h.family.length ≤ 255
  author : h.author.length ≤ 255
  about : h.about.length ≤ 65535

/-- The encoding of the header. -/
def Header.bytes (h : Header) : Bytes :=
  le 4 h.format ++ le 8 h.id ++ le 2 h.major ++ le 2 h.minor ++
  h.first.bytes ++ h.majorDate.bytes ++ h.minorDate.bytes ++
  (le 1 h.name.length ++ h.name) ++ (le 1 h.family.length ++ h.family) ++
  (le 1 h.author.length ++ h.author) ++ (le 2 h.about.length ++ h.about)

end Spec
