import Verif.Model.Message

/-!
# The name `RawValue` is known by

`Cargo.toml` line 21 asks for the feature `raw_value` of `serde_json`.  With it `Value::deserialize` looks at the first member of
every object: if it has the name under which `RawValue` is passed through serde, its value has to be a string, the string is
read as a JSON text of its own, with a recursion limit of its own, and what is read takes the place of the object; another member
after it is an error.  (Recalled, as all of `serde_json`.)  The rest of the model has no such name; `Props/RawValue.lean` says for
which texts this makes no difference.
-/

namespace Verif

/-- The name, `serde_json::raw::TOKEN` (`Cargo.toml:21`). -/
def rawToken : Str := c!"$serde_json::private::RawValue"

mutual
/-- `Value::deserialize` with the feature `raw_value`; `again` reads the string beside the name.  Models the reading of `body`
(`src/messages/message.rs:56,198`; `Cargo.toml:21`). -/
def rawJ (F : Str → Option Str) (again : Str → Option Json) : Json → Option Json
  | .null => some .null
  | .bool b => some (.bool b)
  | .num t => (normNum F t).map .num
  | .str s => some (.str s)
  | .arr l => (rawL F again l).map .arr
  | .obj [] => some (.obj [])
  | .obj ((k, v) :: es) =>
    if k = rawToken then
      match v, es with
      | .str s, [] => again s
      | _, _ => none
    else
      match rawJ F again v, rawM F again es with
      | some v', some es' => some (.obj (entriesOf ((k, v') :: es')))
      | _, _ => none
/-- elements (`src/messages/message.rs:56`) -/
def rawL (F : Str → Option Str) (again : Str → Option Json) : List Json → Option (List Json)
  | [] => some []
  | j :: l =>
    match rawJ F again j, rawL F again l with
    | some j', some l' => some (j' :: l')
    | _, _ => none
/-- members after the first (`src/messages/message.rs:56`) -/
def rawM (F : Str → Option Str) (again : Str → Option Json) : List (Str × Json) → Option (List (Str × Json))
  | [] => some []
  | (k, v) :: l =>
    match rawJ F again v, rawM F again l with
    | some v', some l' => some ((k, v') :: l')
    | _, _ => none
end

/-- `serde_json::from_str::<Value>` for at most `n` texts inside each other (`src/messages/message.rs:198`). -/
def rawText (F : Str → Option Str) : Nat → Str → Option Json
  | 0, _ => none
  | n + 1, s => (parseJson s).bind fun j => if j.depth ≤ 127 then rawJ F (rawText F n) j else none

/-- `serde_json::from_str::<Value>` (`src/messages/message.rs:198`).  A text inside is shorter than the text around it, so its
length bounds how many there are (`Verif.rawText_enough`). -/
def rawValueOfText (F : Str → Option Str) (s : Str) : Option Json := rawText F (s.length + 1) s

/-- Models `body`, `src/messages/message.rs:197-200`, with the feature `raw_value`. -/
def Message.setBodyRaw (P : Prims) (m : Message) (text : Str) : Res Message := do
  let v ← Res.ofOpt .serde (rawValueOfText P.f64 text)
  pure { m with body := v }

/-- Models the derived `Deserialize` of `Message`, `src/messages/message.rs:39-70`, with the feature `raw_value`: as
`decMessage` but for `body`. -/
def decMessageRaw (F : Str → Option Str) (again : Str → Option Json) (j : Json) : Option Message := do
  let es ← mapEntries j
  let recipients ← optField (decVec decRecipient) c!"recipients" es
  let body ← reqField (fun v => if 1 + v.depth ≤ 127 then rawJ F again v else none) c!"body" es
  let attachments ← dfltField [] (decVec decAttachment) c!"attachments" es
  let rest := es.filter fun p => !messageKeys.contains p.1
  guard (buffered F rest = true)
  let jwm ← decJwmE rest
  let didcomm ← decDidcommE (rest.filter fun p => !jwmKeys.contains p.1)
  pure { jwm, didcomm, recipients, body, flatJwe := false, flatJws := false, attachments }

/-- `serde_json::from_str::<Message>` with the feature `raw_value` (`src/messages/message.rs:433`,
`src/messages/helpers/receive.rs:39,138`). -/
def Message.ofTextRaw (F : Str → Option Str) (s : Str) : Option Message :=
  (parseJson s).bind (decMessageRaw F (rawText F s.length))

end Verif
