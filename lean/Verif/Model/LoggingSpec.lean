import Verif.Model.Logging

/-!
What a user of the logs expects: where each message goes, as a function of the calls so far.
-/
namespace Clr.Logging

/-- How deep the messages of a name are indented after some calls. -/
def depth (a : Nat) : List Op → Int
  | [] => 0
  | .push n :: ops => (if n.addr = a then 1 else 0) + depth a ops
  | .pop n :: ops => (if n.addr = a then -1 else 0) + depth a ops
  | _ :: ops => depth a ops

/-- The text in front of a message: tabs for information, a word for the other two. -/
def prefixText (d : Int) (tag : Nat) : Bytes :=
  if tag = 1 then List.replicate d.toNat 9
  else if tag = 2 then b!"WARNING: "
  else if tag = 4 then b!"ERROR: "
  else []

/-- What a call of `log` after some calls sends to a stream: at most 511 bytes of the text, behind the prefix. -/
def message (past : List Op) (n : Name) (tag : Nat) (p : Bool) (text : Bytes) : Bytes :=
  (if p then prefixText (depth n.addr past) tag else []) ++ text.take 511

/-- Whether a call sets a file for a name and the tag of bit `i`. -/
def setsFile (a i : Nat) : Op → Bool
  | .toFile n tag _ => n.addr == a && tag.testBit i
  | _ => false

/-- Whether a call sets the standard output for a name and the tag of bit `i`. -/
def setsStdout (a i : Nat) : Op → Bool
  | .toStdout n tag => n.addr == a && tag.testBit i
  | _ => false

/-- Whether a call opens a file. -/
def opens (f : Bytes) : Op → Bool
  | .toFile _ _ g => g == f
  | _ => false

/-- The messages of a name and the tag of bit `i`, one behind the other, of calls that follow others. -/
def logged (a i : Nat) : List Op → List Op → Bytes
  | _, [] => []
  | past, .log n tag p text :: ops =>
    (if n.addr = a ∧ tag.log2 = i then message past n tag p text else []) ++ logged a i (past ++ [.log n tag p text]) ops
  | past, op :: ops => logged a i (past ++ [op]) ops

/-- How often the standard output has been set for a name and tag since a file was. -/
def outputs (a i : Nat) : List Op → Nat
  | [] => 0
  | op :: ops => if ops.any (setsFile a i) then outputs a i ops else (if setsStdout a i op then 1 else 0) + outputs a i ops

/-- What calls that follow others send to the standard output. -/
def printed : List Op → List Op → Bytes
  | _, [] => []
  | past, .log n tag p text :: ops =>
    (List.replicate (outputs n.addr tag.log2 past) (message past n tag p text)).flatten ++
      printed (past ++ [.log n tag p text]) ops
  | past, op :: ops => printed (past ++ [op]) ops

end Clr.Logging
