import Verif.Model.Tokenizer
import Verif.Spec.Diagnosis
import Verif.Spec.Accessors
/-! # Specification: streams of frames and what a receiver delivers -/
namespace Syslog5424.Spec

/-- Two lists have the same length and correspond element by element. -/
inductive Each {α β : Type} (R : α → β → Prop) : List α → List β → Prop
  | nil : Each R [] []
  | cons {a : α} {b : β} {as : List α} {bs : List β} : R a b → Each R as bs → Each R (a :: as) (b :: bs)

/-- The bytes a sequence of reads returned. -/
def arrived (reads : List Tok.Read) : Bytes := reads.flatMap Tok.Read.data

/-- The byte stream of a list of payloads. -/
def stream (t : Transport) (ps : List Bytes) : Bytes := ps.flatMap t.encode

/-- With the identifiers `reg` registered, in this order of the registry, `sdata.Parse` reads the wire form of `v` as `w`,
whatever comes after it in memory. -/
def ReadAs (reg : List SDID) (v w : SD) : Prop :=
  ∃ b, v.marshal = .ret (.ok b) ∧ ∀ following : Bytes, registryFound reg ⟨b, following⟩ = .ret (some w)

/-- What receiving the payload `p` must give: if it has the shape of a message, that message, with its fields,
its text, and its structured data (what the registered identifiers make of each element), and no error; otherwise no message, and the error that says what is
wrong (`Wrong`). -/
structure Conveys (p : Bytes) (m : MsgImm) (err : Option Err) : Prop where
  message : ∀ {pri ts host app pid mid : Bytes} {xs : List Bytes} {o : Option Bytes},
    Frame p [pri, ts, host, app, pid, mid] xs o →
    err = none ∧ m.string = p ∧ ReadsAs m pri ts host app pid mid ((o.getD []).drop 1)
  elements : ∀ {fs xs : List Bytes} {o : Option Bytes} {els : List (Bytes × List (Bytes × Bytes))}, Frame p fs xs o →
    xs = els.map (fun x => elementText x.1 x.2) → ∀ (reg : List SDID) (f : Bytes × List (Bytes × Bytes) → SD),
    (∀ x ∈ els, ∀ following : Bytes, registryFound reg ⟨elementText x.1 x.2, following⟩ = .ret (some (f x))) →
    m.structuredData reg = .ret (els.map f)
  malformed : (¬ ∃ fs xs o, Frame p fs xs o) → err ≠ none ∧ m.string = []
  diagnosis : ∀ {e : Err}, Wrong p e → err = some e

/-- A message without structured data: six header fields and a text, without the byte `c`. -/
structure Line (c : UInt8) (fs : List Bytes) (text : Bytes) : Prop where
  six : fs.length = 6
  raw : ∀ f ∈ fs, RawField f ∧ c ∉ f
  text : c ∉ text

/-- The bytes of such a message: `... - text`. -/
def lineText (l : List Bytes × Bytes) : Bytes := headerText l.1 ++ b!"- " ++ l.2

end Syslog5424.Spec
