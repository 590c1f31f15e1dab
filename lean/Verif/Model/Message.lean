import Verif.Model.Priority
import Verif.Model.Helpers
import Verif.Model.Time
import Verif.Model.SData
/-!
# Model of `message.go`

Structured data lists are values here; the sharing of their backing arrays is modelled separately in
`Model/Alias.lean`.
-/
namespace Syslog5424

/-- `Message` (message.go:14-23). -/
structure Message where
  prio : Priority
  timestamp : Time
  hostname : Bytes
  appname : Bytes
  procid : Bytes
  msgid : Bytes
  sd : List SD
  message : Bytes

namespace Message

/-- `CreateMessage` (message.go:31-33); `osHostname` is the package variable `hostname`
(message.go:28) and `now` the value of `time.Now()`. -/
def create (osHostname : Bytes) (now : Time) (appname : Bytes) (prio : Priority) (message : Bytes) : Message :=
  ⟨prio, now, osHostname, validApp appname, b!"-", b!"-", [], trimRightSpace message⟩

/-- `CreateWholeMessage` (message.go:36-38). -/
def createWhole (prio : Priority) (ts : Time) (host app pid msgid message : Bytes) : Message :=
  ⟨prio, ts, validHost host, validApp app, validProcid pid, validMsgid msgid, [], trimRightSpace message⟩

/-- `forgeMessage` (message.go:42-44). -/
def forge (prio : Priority) (ts : Time) (host app pid msgid message : Bytes) : Message :=
  ⟨prio, ts, host, app, pid, msgid, [], trimRightSpace message⟩

/-- `EmptyMessage` (message.go:47-49). `time.Unix(0, 0)` is the instant 0 in the local time zone; the model takes UTC
for it (the calls `Now`, `Epoch`, `Delta` of the model take the zone as a parameter). -/
def empty : Message := ⟨0, .epoch, b!"-", b!"-", b!"-", b!"-", [], []⟩

/-- `Message.Host` (message.go:98-100). -/
def setHost (m : Message) (host : Bytes) : Message := { m with hostname := validHost host }
/-- `Message.Time` (message.go:103-105); also `Now`, `Timestamp`, `Delta`, `Epoch`
(message.go:52-54,69-71,81-83,93-95), which only differ by the time they compute. -/
def setTime (m : Message) (ts : Time) : Message := { m with timestamp := ts }
/-- `Message.AppName` (message.go:108-110). -/
def setAppName (m : Message) (app : Bytes) : Message := { m with appname := validApp app }
/-- `Message.ProcID` (message.go:113-115). -/
def setProcID (m : Message) (pid : Bytes) : Message := { m with procid := validProcid pid }
/-- `Message.MsgID` (message.go:118-120). -/
def setMsgID (m : Message) (id : Bytes) : Message := { m with msgid := validMsgid id }
/-- `Message.Priority` (message.go:123-125). -/
def setPriority (m : Message) (p : Priority) : Message := { m with prio := p }
/-- `Message.LocalHost` (message.go:128-130). -/
def setLocalHost (osHostname : Bytes) (m : Message) : Message := { m with hostname := osHostname }
/-- `Message.Msg` (message.go:133-135). -/
def setMsg (m : Message) (text : Bytes) : Message := { m with message := trimRightSpace text }
/-- `Message.StructuredData` (message.go:138-140) with `List.Add` (sdata/list.go:79-82). -/
def addSD (m : Message) (data : List SD) : Message := { m with sd := m.sd ++ data }

/-- `Message.Marshal5424` (message.go:143-199). -/
def marshal (m : Message) : Res Bytes :=
  let prio := m.prio.marshal
  let ts := m.timestamp.format
  Res.bind (sdListMarshal m.sd) fun sd =>
    if m.message = [] then
      .ret (.ok (prio ++ [SP] ++ ts ++ [SP] ++ m.hostname ++ [SP] ++ m.appname ++ [SP] ++ m.procid
        ++ [SP] ++ m.msgid ++ [SP] ++ sd))
    else
      .ret (.ok (prio ++ [SP] ++ ts ++ [SP] ++ m.hostname ++ [SP] ++ m.appname ++ [SP] ++ m.procid
        ++ [SP] ++ m.msgid ++ [SP] ++ sd ++ [SP] ++ m.message))

/-- `Message.String` (message.go:201-205): errors give the empty string. -/
def string (m : Message) : Out Bytes :=
  match m.marshal with
  | .ret (.ok b) => .ret b
  | .ret (.error _) => .ret []
  | .panic => .panic
  | .hang => .hang

end Message
end Syslog5424
