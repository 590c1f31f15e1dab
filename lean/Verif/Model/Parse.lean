import Verif.Model.Message
import Verif.Model.Transport
/-!
# Model of `message-immutable.go`
-/
namespace Syslog5424

/-- `MessageImmutable` (message-immutable.go:15-19). -/
structure MsgImm where
  buffer : Slice
  index : List Int
  text : Int
deriving Repr, DecidableEq

/-- The zero value returned with an error (or when more data is needed). -/
def MsgImm.zero : MsgImm := ⟨⟨[], []⟩, [], 0⟩

/-- What `Parse` returns: `returnMsg`, `rest`, `mainErr`. -/
abbrev ParseRes := MsgImm × Option Slice × Option Err

/-- `searchNextSep` (message-immutable.go:22-34) for a one byte separator. -/
def searchNextSep (data : Slice) (sep : UInt8) : Except Err Nat :=
  match indexByte sep data.vis with
  | none => .error .posNotFound
  | some 0 => .error .pos0
  | some pos => .ok pos

/-- `dispatchError` (message-immutable.go:247-255), for a non-nil `err`. -/
def dispatchError (mainErr : Option Err) (err : Err) : Option Err :=
  match mainErr with
  | none => some err
  | some e => some e

/-- `parseReturn` (message-immutable.go:257-285), without the unused result `data`. -/
def parseReturn (msg : MsgImm) (transport : Option Transport) (atEOF : Bool)
    (data : Slice) (rest : Option Slice) : Out ParseRes :=
  match transport with
  | none => .ret (msg, rest, none)
  | some t =>
    match rest with
    | some r => .ret (msg, some r, none)
    | none => do
      let d ← data.from_ msg.text
      let (data, rest, mainErr) ← t.suffixStrip (some d) atEOF
      if data = none ∧ rest = none ∧ mainErr = none then
        return (MsgImm.zero, none, none)
      else
        let stop : Int := msg.text + (Slice.ofNil data).len
        if (msg.buffer.len : Int) > stop then do
          let b ← msg.buffer.sub 0 stop
          return ({ msg with buffer := b }, rest, mainErr)
        else return (msg, rest, mainErr)

/-- The header loop of `Parse` (message-immutable.go:159-171); the first argument is the number of
parts still to be found. The result is `begin` and `msg.index`. -/
def fieldLoop (data : Slice) : Nat → Nat → List Int → Out (Except Err (Nat × List Int))
  | 0, start, index => .ret (.ok (start, index))
  | parts + 1, start, index => do
    let d ← data.from_ start
    match searchNextSep d SP with
    | .error e => return .error e
    | .ok stop => fieldLoop data parts (start + stop + 1) (index ++ [((start + stop : Nat) : Int)])

/-- The structured data loop of `Parse` (message-immutable.go:207-244). `t` and `start` are the Go
variables `t` and `begin`; the first argument bounds the number of iterations. -/
def sdLoop (transport : Option Transport) (atEOF : Bool) (rest : Option Slice)
    (mainErr : Option Err) (data : Slice) : Nat → Nat → Nat → List Int → Out ParseRes
  | 0, _, _, _ => .hang
  | fuel + 1, t, start, index => do
    let d ← data.from_ t
    if d.len = 0 then return (MsgImm.zero, rest, dispatchError mainErr .impossible)
    else
      match searchNextSep d RBRK with
      | .ok stop => do
        let c ← data.at_ ((t + stop : Nat) - 1 : Int)
        if c = BSL then sdLoop transport atEOF rest mainErr data fuel (t + stop + 1) start index
        else if c = DQ then
          let index := index ++ [((t + stop + 1 : Nat) : Int)]
          let start := t + stop + 1
          if data.len ≤ start then
            parseReturn ⟨data, index, -1⟩ transport atEOF data rest
          else sdLoop transport atEOF rest mainErr data fuel start start index
        else
          return (MsgImm.zero, rest, dispatchError mainErr (.parseError (t + stop - 1) "\\\\ or \" expected"))
      | .error .posNotFound =>
        parseReturn ⟨data, index, ((start + 1 : Nat) : Int)⟩ transport atEOF data rest
      | .error e => return (MsgImm.zero, rest, dispatchError mainErr e)

/-- `Parse` after the prefix was stripped (message-immutable.go:153-244). -/
def parseBody (data : Slice) (rest : Option Slice) (mainErr : Option Err)
    (transport : Option Transport) (atEOF : Bool) : Out ParseRes := do
  -- `for len(data) > 0 && parts < 6`
  let r ← fieldLoop data (if data.len > 0 then 6 else 0) 0 []
  match r with
  | .error e => return (MsgImm.zero, rest, dispatchError mainErr e)
  | .ok (start, index) => do
    let d ← data.from_ start
    if d.len = 0 then
      return (MsgImm.zero, rest, dispatchError mainErr (.parseError start "empty field expected"))
    else if d.len = 1 then do
      let c ← data.at_ start
      if c ≠ DASH then
        return (MsgImm.zero, rest, dispatchError mainErr (.parseError start "empty field expected"))
      else
        parseReturn ⟨data, index ++ [((start + 2 : Nat) : Int)], -1⟩ transport atEOF data rest
    else
      match searchNextSep d SP with
      | .error e => return (MsgImm.zero, rest, dispatchError mainErr e)
      | .ok stop =>
        if stop = 1 then do
          let c ← data.at_ start
          if c ≠ DASH then
            return (MsgImm.zero, rest, dispatchError mainErr (.parseError start "empty structured data expected"))
          else
            parseReturn ⟨data, index ++ [((start + 1 : Nat) : Int)], ((start + 2 : Nat) : Int)⟩
              transport atEOF data rest
        else sdLoop transport atEOF rest mainErr data (data.len + 1) start start index

/-- `Parse` (message-immutable.go:141-245). -/
def parse (data : Option Slice) (transport : Option Transport) (atEOF : Bool) : Out ParseRes :=
  match transport with
  | none => parseBody (Slice.ofNil data) none none none atEOF
  | some t => do
    let (data, rest, mainErr) ← t.prefixStrip data atEOF
    if data = none ∧ rest = none ∧ mainErr = none then return (MsgImm.zero, none, none)
    else parseBody (Slice.ofNil data) rest mainErr (some t) atEOF

/-! ### Accessors -/

namespace MsgImm

/-- `msg.index[i]` -/
def idx (m : MsgImm) (i : Nat) : Out Int :=
  match m.index[i]? with
  | some x => .ret x
  | none => .panic

/-- `String` (message-immutable.go:36-38). -/
def string (m : MsgImm) : Bytes := m.buffer.vis

/-- `WriteTo` (message-immutable.go:134-138): the bytes given to the writer. -/
def writeTo (m : MsgImm) : Bytes := m.buffer.vis

/-- `Priority` (message-immutable.go:41-46): a decoding error is ignored and leaves 0. -/
def priority (m : MsgImm) : Out Priority := do
  let stop ← m.idx 0
  let b ← m.buffer.sub 0 stop
  return (Priority.unmarshal 0 b.vis).1

/-- The bytes between two indexes: `msg.buffer[msg.index[i]+1 : msg.index[i+1]]`. -/
def field (m : MsgImm) (i : Nat) : Out Bytes := do
  let start ← m.idx i
  let stop ← m.idx (i + 1)
  let b ← m.buffer.sub (start + 1) stop
  return b.vis

/-- `TimeStamp` (message-immutable.go:49-55): a parsing error gives the zero time. -/
def timeStamp (m : MsgImm) : Out Time := do
  let b ← m.field 0
  return (Time.parse b).getD Time.zero

/-- `Hostname` (message-immutable.go:58-64). -/
def hostname (m : MsgImm) : Out Bytes := do return validHost (← m.field 1)
/-- `AppName` (message-immutable.go:67-72). -/
def appName (m : MsgImm) : Out Bytes := do return validApp (← m.field 2)
/-- `ProcID` (message-immutable.go:75-80). -/
def procID (m : MsgImm) : Out Bytes := do return validProcid (← m.field 3)
/-- `MsgID` (message-immutable.go:83-88). -/
def msgID (m : MsgImm) : Out Bytes := do return validMsgid (← m.field 4)

/-- The loop of `StructuredData` (message-immutable.go:105-113); `reg` is the content of the
registry in the iteration order used. -/
def sdItems (reg : List SDID) (buffer : Slice) : Int → List Int → Out (List SD)
  | _, [] => .ret []
  | start, stop :: r => do
    let b ← buffer.sub start stop
    let o ← registryFound reg b
    let l ← sdItems reg buffer stop r
    match o with
    | some sd => return sd :: l
    | none => return l

/-- `StructuredData` (message-immutable.go:91-116). -/
def structuredData (reg : List SDID) (m : MsgImm) : Out (List SD) :=
  if m.index.length < 5 then .panic           -- msg.index[5:]
  else if m.index.length - 5 < 2 then .ret []
  else do
    let i5 ← m.idx 5
    if m.index.length - 5 = 2 then do
      let c ← m.buffer.at_ (i5 + 1)
      if c = DASH then return []
      else sdItems reg m.buffer (i5 + 1) (m.index.drop 6)
    else sdItems reg m.buffer (i5 + 1) (m.index.drop 6)

/-- `Text` (message-immutable.go:119-126). -/
def textOf (m : MsgImm) : Out Bytes :=
  if m.text < 1 then .ret []
  else do
    let b ← m.buffer.from_ m.text
    return b.vis

/-- `Writable` (message-immutable.go:129-131). -/
def writable (reg : List SDID) (m : MsgImm) : Out Message := do
  let p ← m.priority
  let t ← m.timeStamp
  let h ← m.hostname
  let a ← m.appName
  let pr ← m.procID
  let mi ← m.msgID
  let sd ← m.structuredData reg
  let tx ← m.textOf
  return ⟨p, t, h, a, pr, mi, sd, tx⟩

end MsgImm
end Syslog5424
