import Verif.Model.SData
/-!
# Model of `sdata/exported-testing.go`: the test helpers given to the authors of structured data

The texts of the errors returned by `DoTest` are not modelled, only which check failed.
-/
namespace Syslog5424

/-- The implementations of `SDTest` (sdata/exported-testing.go:15-38), made by `TestValid` (exported-testing.go:42-48),
`TestInvalidUnmarshal` (exported-testing.go:51-55) and `TestInvalidMarshal` (exported-testing.go:58-63); `genericTest`
is used by the tests of the package only. A nil `error` is `none`. -/
inductive SDTest where
  | valid (orig : Bytes) (obj : SD) (enc : Bytes)
  | invalidUnmarshal (orig : Bytes)
  | invalidMarshal (obj : SD) (err : Option Err)
  | generic (orig : Bytes) (obj : SD)

/-- What `DoTest` returns: nil, or an error telling which check failed. -/
inductive Verdict where
  | pass            -- nil
  | cantParse       -- exported-testing.go:68
  | objectDiffers   -- exported-testing.go:72
  | cantMarshal     -- exported-testing.go:77,99
  | textDiffers     -- exported-testing.go:81,103
  | errorDiffers    -- exported-testing.go:112
  | parses          -- exported-testing.go:120
deriving Repr, DecidableEq

/-- `reflect.DeepEqual` between what `Found` returned and the expected object (exported-testing.go:71). A
`TimeQuality` is equal to a `TimeQuality` with the same flags and the same accuracy (the pointers are followed), an
`unknownSD` to one with the same name and the same pairs (`Map` is nil exactly when there is no pair, as only `Found`
makes such values); values of different types differ. What is not known of the other values is the parameter
`other`. -/
def deepEqual (other : SD → SD → Bool) : SD → SD → Bool
  | .tq a, .tq b => a == b
  | .unknown n ps, .unknown m qs => n == m && ps == qs
  | .tq _, _ => false
  | _, .tq _ => false
  | .unknown _ _, _ => false
  | _, .unknown _ _ => false
  | a, b => other a b

/-- Errors that are pointers allocated by the call that returns them: `*MarshalerError`, `*UnsupportedTypeError`,
`*InvalidValueError` (sdata/structured-data-encoder.go:92,96,156) and the `*reflect.ValueError` of the reflect
package. -/
def Err.fresh : Err → Bool
  | .unsupportedType => true
  | .invalidValue => true
  | .reflectValueError => true
  | .marshaler _ => true
  | _ => false

/-- The comparison `err != val.Err` (exported-testing.go:111): the error just returned against the one the author of
the test wrote down before. Two nil errors are equal, and an error is equal to itself; a pointer allocated by the call
is equal to nothing that existed before. Comparing two `ParseError` values (errors.go:8-14), which are structs with a
slice in them, panics. -/
def sameError : Option Err → Option Err → Out Bool
  | none, none => .ret true
  | some (.parseError _ _), some (.parseError _ _) => .panic
  | some a, some b => .ret (a == b && !a.fresh)
  | _, _ => .ret false

/-- exported-testing.go:111-114. -/
def errorVerdict (got expected : Option Err) : Out Verdict :=
  match sameError got expected with
  | .panic => .panic
  | .hang => .hang
  | .ret same => if same then .ret .pass else .ret .errorDiffers

/-- `DoTest` (exported-testing.go:65-85 for `validTest`, 87-107 for `genericTest`, 109-115 for `invalidMarshal`,
117-123 for `invalidUnmarshal`). `spare` are the bytes beyond the length of the slice made by `[]byte(val.Orig)`. -/
def doTest (other : SD → SD → Bool) (spare : Bytes) (sdid : SDID) : SDTest → Out Verdict
  | .valid orig obj enc =>
    match sdid.found ⟨orig, spare⟩ with
    | .panic => .panic
    | .hang => .hang
    | .ret none => .ret .cantParse
    | .ret (some o) =>
      if deepEqual other o obj then
        match o.marshal with
        | .panic => .panic
        | .hang => .hang
        | .ret (.error _) => .ret .cantMarshal
        | .ret (.ok d) => if d = enc then .ret .pass else .ret .textDiffers
      else .ret .objectDiffers
  | .invalidUnmarshal orig =>
    match sdid.found ⟨orig, spare⟩ with
    | .panic => .panic
    | .hang => .hang
    | .ret (some _) => .ret .parses
    | .ret none => .ret .pass
  | .invalidMarshal obj err =>
    match obj.marshal with
    | .panic => .panic
    | .hang => .hang
    | .ret (.ok _) => errorVerdict none err
    | .ret (.error e) => errorVerdict (some e) err
  | .generic orig obj =>
    match obj.marshal with
    | .panic => .panic
    | .hang => .hang
    | .ret (.error _) => .ret .cantMarshal
    | .ret (.ok d) => if d = orig then .ret .pass else .ret .textDiffers

end Syslog5424
