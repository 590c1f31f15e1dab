import Verif.Go
/-!
# Model of `transport.go`
-/
namespace Syslog5424

/-- The three built-in transports (transport.go:37-46; their names, transport.go:48-58, are not modelled). -/
inductive Transport where
  | zeroEnded
  | lfEnded
  | rfc5425
deriving Repr, DecidableEq

/-- Results of `PrefixStrip` and `SuffixStrip`: `data`, `rest`, `err`; `none` is nil. -/
abbrev Strip := Option Slice × Option Slice × Option Err

namespace Transport

/-- `Encode` (transport.go:148-169), on values (see `Model/Alias.lean` for `append`'s sharing). -/
def encode : Transport → Bytes → Bytes
  | zeroEnded, d => d ++ [NUL]
  | lfEnded, d => d ++ [LF]
  | rfc5425, d => natDec d.length ++ [SP] ++ d

/-- `PrefixStrip` (transport.go:60-104). -/
def prefixStrip (t : Transport) (buffer : Option Slice) (atEOF : Bool) : Out Strip :=
  match buffer with
  | none => .ret (none, none, none)
  | some buf =>
    if buf.len = 0 then .ret (none, none, none)
    else
      match t with
      | zeroEnded => .ret (some buf, none, none)
      | lfEnded => .ret (some buf, none, none)
      | rfc5425 =>
        if buf.len < 20 then .ret (none, none, none)
        else
          match indexByte SP buf.vis with
          | none => .ret (none, none, some .noHeader)
          | some 0 => .ret (none, none, some .noHeader)
          | some sepPos =>
            match atoi (buf.vis.take sepPos) with
            | none => .ret (none, none, some .invHeader)
            | some lenMsg =>
              let start : Int := sepPos + 1
              let lenBuff := wrap64 (start + lenMsg)
              if (buf.len : Int) < lenBuff then
                if atEOF then do
                  let d ← buf.from_ start
                  return (some d, none, some .incomplete)
                else .ret (none, none, none)
              else do
                let d ← buf.sub start lenBuff
                let r ← buf.from_ lenBuff
                return (some d, some r, none)

/-- The terminator search shared by the two `SuffixStrip` (transport.go:111-113, 128-130):
`buffer[0:i], buffer[i+1:]`. -/
def cutAt (buf : Slice) (i : Nat) : Out Strip := do
  let d ← buf.sub 0 i
  let r ← buf.from_ (i + 1)
  return (some d, some r, none)

/-- `SuffixStrip` (transport.go:106-144). -/
def suffixStrip (t : Transport) (buffer : Option Slice) (atEOF : Bool) : Out Strip :=
  match buffer with
  | none => .ret (none, none, none)
  | some buf =>
    if buf.len = 0 then .ret (none, none, none)
    else
      match t with
      | zeroEnded =>
        match indexByte NUL buf.vis with
        | some i => cutAt buf i
        | none => if atEOF then .ret (some buf, none, none) else .ret (some buf, none, none)
      | lfEnded =>
        match indexByte LF buf.vis with
        | some i => cutAt buf i
        | none => if atEOF then .ret (some buf, none, some .incomplete) else .ret (some buf, none, none)
      | rfc5425 => .ret (some buf, none, none)

end Transport
end Syslog5424
