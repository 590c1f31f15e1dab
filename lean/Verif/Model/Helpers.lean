import Verif.Go
/-!
# Model of `helpers.go`, and of `strings.TrimRightFunc(_, unicode.IsSpace)` used by `message.go`
-/
namespace Syslog5424

/-- The byte replacement in the loop of `validatorGeneric` (helpers.go:33-35). -/
def cleanByte (b : UInt8) : UInt8 := if b < 33 ∨ b > 126 then 37 else b

/-- `validatorGeneric` (helpers.go:19-39). The loop runs over the first `l` bytes, each byte
independently, so it is a map. -/
def validatorGeneric (data : Bytes) (maxlen : Nat) : Bytes :=
  let l := data.length
  if l = 0 then b!"-"
  else
    let l := if l > maxlen then maxlen else l
    (data.take l).map cleanByte

/-- helpers.go:3-5 -/
def validHost (d : Bytes) : Bytes := validatorGeneric d 255
/-- helpers.go:7-9 -/
def validApp (d : Bytes) : Bytes := validatorGeneric d 48
/-- helpers.go:11-13 -/
def validProcid (d : Bytes) : Bytes := validatorGeneric d 128
/-- helpers.go:15-17 -/
def validMsgid (d : Bytes) : Bytes := validatorGeneric d 32

/-- One step of `strings.TrimRightFunc(s, unicode.IsSpace)` on the reversed bytes: if the last rune
is a white space, the remaining reversed bytes. Models `utf8.DecodeLastRuneInString` followed by
`unicode.IsSpace` (Go standard library): the white space runes are U+0009-U+000D, U+0020, U+0085,
U+00A0, U+1680, U+2000-U+200A, U+2028, U+2029, U+202F, U+205F, U+3000; UTF-8 is self-synchronising,
so the last rune is one of these iff the string ends with its encoding. -/
def stripSpaceRev : Bytes → Option Bytes
  | [] => none
  | a :: r =>
    if (9 ≤ a ∧ a ≤ 13) ∨ a = 32 then some r
    else match r with
      | [] => none
      | b :: r2 =>
        if b = 0xC2 ∧ (a = 0x85 ∨ a = 0xA0) then some r2
        else match r2 with
          | [] => none
          | c :: r3 =>
            if (c = 0xE1 ∧ b = 0x9A ∧ a = 0x80)
              ∨ (c = 0xE2 ∧ b = 0x80 ∧ ((0x80 ≤ a ∧ a ≤ 0x8A) ∨ a = 0xA8 ∨ a = 0xA9 ∨ a = 0xAF))
              ∨ (c = 0xE2 ∧ b = 0x81 ∧ a = 0x9F)
              ∨ (c = 0xE3 ∧ b = 0x80 ∧ a = 0x80) then some r3
            else none

/-- The loop of `strings.TrimRightFunc`, on reversed bytes (`fuel` bounds the number of runes). -/
def trimRev : Nat → Bytes → Bytes
  | 0, s => s
  | fuel + 1, s =>
    match stripSpaceRev s with
    | some s' => trimRev fuel s'
    | none => s

/-- `strings.TrimRightFunc(message, unicode.IsSpace)` (message.go:32,37,43,134). -/
def trimRightSpace (s : Bytes) : Bytes := (trimRev s.length s.reverse).reverse

end Syslog5424
