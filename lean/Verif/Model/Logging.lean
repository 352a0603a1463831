import Verif.Basic
/-
Model of the log streams (src/clReflectCore/Logging.cpp, Logging.h).

The standard library's files are modelled as far as the logs use them: `fopen(name, "w")` empties the file and gives a
handle at its start, `fputs` followed by `fflush` writes at the handle's position and moves it.
-/
namespace Clr.Logging

/-! ### Files -/

/-- An open `FILE*`: the file's name and the position. -/
structure Handle where
  file : Bytes
  pos : Nat
deriving DecidableEq

/-- What the process can reach: its standard output, the files, and the handles it has opened, numbered in order. -/
structure World where
  stdout : Bytes
  files : Bytes → Option Bytes
  handles : List Handle

/-- `fopen(name, "w")`; `can` says which files can be opened. -/
def fopenW (can : Bytes → Bool) (w : World) (name : Bytes) : Option Nat × World :=
  if can name then
    (some w.handles.length,
      { w with files := fun f => if f = name then some [] else w.files f, handles := w.handles ++ [⟨name, 0⟩] })
  else (none, w)

/-- Write over a file's contents at a position; a gap is filled with zeros. -/
def overwrite (old : Bytes) (pos : Nat) (text : Bytes) : Bytes :=
  old.take pos ++ List.replicate (pos - old.length) 0 ++ text ++ old.drop (pos + text.length)

/-- `fputs(text, fp)` and `fflush(fp)`. -/
def fputs (w : World) (fp : Nat) (text : Bytes) : World :=
  match w.handles[fp]? with
  | none => w
  | some h =>
    { w with
      files := fun f => if f = h.file then some (overwrite ((w.files f).getD []) h.pos text) else w.files f
      handles := w.handles.set fp ⟨h.file, h.pos + text.length⟩ }

/-! ### Streams -/

/-- `StdoutStream` and `FileStream` (Logging.cpp:42-85); `fp` is null if the file could not be opened. -/
inductive Stream where
  | stdout
  | file (fp : Option Nat)
deriving DecidableEq

/-- `Stream::Log` (Logging.cpp:44-48, 72-80). -/
def Stream.log (w : World) (s : Stream) (text : Bytes) : World :=
  match s with
  | .stdout => { w with stdout := w.stdout ++ text }
  | .file none => w
  | .file (some fp) => fputs w fp text

/-- `StreamSet` (Logging.cpp:123-129): the list of streams for each of the 31 bits of a tag. -/
structure StreamSet where
  indent : Int
  streams : Nat → List Stream

/-- A name as the macros of Logging.h (74-106) hand it over: a string literal, that is an address with a text. -/
structure Name where
  addr : Nat
  text : Bytes
deriving DecidableEq

/-- `g_StreamMap` (Logging.cpp:132-142), by the address of the name: the key is `const char*`; and the world. -/
structure State where
  sets : Nat → StreamSet
  world : World

/-- Before anything is called: no streams. -/
def start (w : World) : State := ⟨fun _ => ⟨0, fun _ => []⟩, w⟩

/-- `NB_TAG_BITS` (Logging.cpp:117). -/
def tagBits : Nat := 31

def setStreams (s : State) (a i : Nat) (l : List Stream) : State :=
  { s with sets := fun b => if b = a then
      { s.sets a with streams := fun j => if j = i then l else (s.sets a).streams j } else s.sets b }

/-- The loop of `SetLogToStream` for `StdoutStream` (Logging.cpp:162-180), from bit `i` with `k` to go: its implicit copy
constructor keeps `next`, so that the new stream is in front of the others. -/
def stdoutLoop (a tag : Nat) : Nat → Nat → State → State
  | 0, _, s => s
  | k + 1, i, s =>
    stdoutLoop a tag k (i + 1) (if tag.testBit i then setStreams s a i (.stdout :: (s.sets a).streams i) else s)

/-- `SetLogToStdout` (Logging.cpp:207-210). -/
def setToStdout (s : State) (n : Name) (tag : Nat) : State := stdoutLoop n.addr tag tagBits 0 s

/-- The loop of `SetLogToStream` for `FileStream` (Logging.cpp:162-180): the copy constructor (61-65) opens the file again
and leaves `next` null, as it does not name its base, so that the new stream is alone. -/
def fileLoop (can : Bytes → Bool) (a tag : Nat) (file : Bytes) : Nat → Nat → State → State
  | 0, _, s => s
  | k + 1, i, s =>
    fileLoop can a tag file k (i + 1)
      (if tag.testBit i then
        let r := fopenW can s.world file
        setStreams { s with world := r.2 } a i [.file r.1]
      else s)

/-- `SetLogToFile` (Logging.cpp:213-223): the file is opened and closed, opened for the argument of `SetLogToStream` (which
is not written to and closed at the end), and opened for each bit of the tag. -/
def setToFile (can : Bytes → Bool) (s : State) (n : Name) (tag : Nat) (file : Bytes) : State :=
  let w := (fopenW can s.world file).2
  let w := (fopenW can w file).2
  fileLoop can n.addr tag file tagBits 0 { s with world := w }

/-- The prefix (Logging.cpp:246-268): 128 bytes, the tabs are written without looking at their number. -/
def prefixOf (indent : Int) (tag : Nat) : Res Bytes :=
  if tag = 1 then
    if 0 ≤ indent ∧ indent < 128 then .ok (List.replicate indent.toNat 9) else .ub
  else if tag = 2 then .ok b!"WARNING: "
  else if tag = 4 then .ok b!"ERROR: "
  else .ok []

/-- The prefix of a call with or without one. -/
def prefixFor (indent : Int) (tag : Nat) (doPrefix : Bool) : Res Bytes := if doPrefix then prefixOf indent tag else .ok []

/-- `Log2` (Logging.cpp:183-204): of 0 it is -1, here as no value. -/
def log2 (tag : Nat) : Option Nat := if tag = 0 then none else some tag.log2

/-- `logging::Log` (Logging.cpp:232-283) with the text that the format makes, which is cut to 511 bytes. -/
def log (s : State) (n : Name) (tag : Nat) (doPrefix : Bool) (text : Bytes) : Res State := do
  let buffer := text.take 511
  let pre ← prefixFor (s.sets n.addr).indent tag doPrefix
  match log2 tag with
  | none => .trap
  | some index =>
    if index < tagBits then
      .ok { s with world := ((s.sets n.addr).streams index).foldl (fun w st =>
        st.log (if doPrefix then st.log w pre else w) buffer) s.world }
    else .trap

def setIndent (s : State) (a : Nat) (d : Int) : State :=
  { s with sets := fun b => if b = a then { s.sets a with indent := d } else s.sets b }

/-- `PushIndent` (Logging.cpp:286-289); `int` overflow is undefined. -/
def pushIndent (s : State) (n : Name) : Res State :=
  if (s.sets n.addr).indent < 2147483647 then .ok (setIndent s n.addr ((s.sets n.addr).indent + 1)) else .ub

/-- `PopIndent` (Logging.cpp:292-295). -/
def popIndent (s : State) (n : Name) : Res State :=
  if (s.sets n.addr).indent > -2147483648 then .ok (setIndent s n.addr ((s.sets n.addr).indent - 1)) else .ub

/-- A call of the interface of Logging.h. -/
inductive Op where
  | toStdout (n : Name) (tag : Nat)
  | toFile (n : Name) (tag : Nat) (file : Bytes)
  | log (n : Name) (tag : Nat) (doPrefix : Bool) (text : Bytes)
  | push (n : Name)
  | pop (n : Name)
deriving DecidableEq

def step (can : Bytes → Bool) (s : State) : Op → Res State
  | .toStdout n tag => .ok (setToStdout s n tag)
  | .toFile n tag file => .ok (setToFile can s n tag file)
  | .log n tag p text => Logging.log s n tag p text
  | .push n => pushIndent s n
  | .pop n => popIndent s n

def run (can : Bytes → Bool) : List Op → State → Res State
  | [], s => .ok s
  | op :: ops, s => do
    let s ← step can s op
    run can ops s

end Clr.Logging
