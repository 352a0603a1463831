import Verif.Basic
/-
Model of `clutl::WriteBuffer` and `clutl::ReadBuffer` (src/clReflectUtil/Serialise.cpp,
inc/clutl/Serialise.h:25-106).

Memory cells are `Option UInt8`: `none` is a cell that was allocated but never written.
Pointers into the buffer are offsets from `m_data`; sizes are `unsigned int`s held in `Nat`, with
the code's conversions to 32 bits written out.
Simplification: `memcpy` of zero bytes is a no-op also with null pointers.
-/
namespace Clr.Buffer

abbrev Cells := List (Option UInt8)

/-- `m_data`, `m_dataEnd`, `m_dataWrite` (inc/clutl/Serialise.h:67-69): the allocated block
(`none`: null) and the write offset. -/
structure Buf where
  data : Option Cells := none
  pos : Nat := 0
deriving DecidableEq, Repr

/-- `GetBytesAllocated` (inc/clutl/Serialise.h:57-60). -/
def Buf.cap (b : Buf) : Nat := match b.data with | none => 0 | some d => d.length

/-- The block as a list of cells. -/
def Buf.cells (b : Buf) : Cells := match b.data with | none => [] | some d => d

/-- The constructor with a capacity (src/clReflectUtil/Serialise.cpp:26-32). -/
def create (capacity : Nat) : Buf := { data := some (List.replicate capacity none), pos := 0 }

/-- `Reset` (src/clReflectUtil/Serialise.cpp:39-42). -/
def reset (b : Buf) : Buf := { b with pos := 0 }

/-- The growth loop `while (write_pos + length > new_capacity) new_capacity += new_capacity / 2`
(src/clReflectUtil/Serialise.cpp:52-55) in 32-bit arithmetic; `none` if it has not ended after the
given number of iterations. -/
def growLoop (need : Nat) : Nat → Nat → Option Nat
  | 0, _ => none
  | n + 1, c => if need > c then growLoop need n ((c + c / 2) % 2 ^ 32) else some c

/-- The capacity growth starts from (src/clReflectUtil/Serialise.cpp:50). -/
def startCap (b : Buf) : Nat := match b.data with | none => 32 | some d => d.length % 2 ^ 32

/-- `Alloc` (src/clReflectUtil/Serialise.cpp:44-75). The result is the offset handed out and the new
state; `none`: the growth loop does not end within `need + 1` iterations, which is enough whenever
it ends without wrapping (`C25_growth_ends_or_never`). -/
def alloc (b : Buf) (length : Nat) : Option (Nat × Buf) :=
  if b.pos + length > b.cap then do
    let need := (b.pos % 2 ^ 32 + length) % 2 ^ 32
    let cap ← growLoop need (need + 1) (startCap b)
    let new := b.cells.take b.pos ++ List.replicate (cap - b.pos) none
    pure (b.pos, { data := some new, pos := b.pos + length })
  else some (b.pos, { b with pos := b.pos + length })

/-- `memcpy` of `bytes` to an offset of the block. -/
def poke (b : Buf) (off : Nat) (bytes : Bytes) : Res Buf :=
  if off + bytes.length ≤ b.cap then
    match b.data with
    | none => .ok b
    | some d => .ok { b with data := some (d.take off ++ bytes.map some ++ d.drop (off + bytes.length)) }
  else .ub

/-- `Write` (src/clReflectUtil/Serialise.cpp:77-82). -/
def write (b : Buf) (bytes : Bytes) : Option (Res Buf) := do
  let (off, b) ← alloc b bytes.length
  pure (poke b off bytes)

/-- `WriteStr` (src/clReflectUtil/Serialise.cpp:84-93) on the memory from the string's address on:
undefined if there is no terminator. -/
def writeStr (b : Buf) (mem : Bytes) : Option (Res Buf) :=
  if (0 : UInt8) ∈ mem then write b (mem.takeWhile (· != 0)) else some .ub

/-- `WriteChar` (src/clReflectUtil/Serialise.cpp:95-99). -/
def writeChar (b : Buf) (c : UInt8) : Option (Res Buf) := do
  let (off, b) ← alloc b 1
  pure (poke b off [c])

/-- `SeekRel` (src/clReflectUtil/Serialise.cpp:101-107). -/
def seekRel (b : Buf) (off : Int) : Res Buf :=
  if 0 ≤ (b.pos : Int) + off ∧ (b.pos : Int) + off ≤ b.cap then
    .ok { b with pos := ((b.pos : Int) + off).toNat }
  else .trap

/-- What `GetData()` shows of the bytes before the write position. -/
def Buf.contents (b : Buf) : Cells := b.cells.take b.pos

/-- The calls of a history. -/
inductive Op where
  | write (bytes : Bytes)
  | writeStr (text : Bytes)
  | writeChar (c : UInt8)
  | alloc (n : Nat)
  | reset
  | seek (off : Int)
deriving DecidableEq, Repr

def step (b : Buf) : Op → Option (Res Buf)
  | .write bs => write b bs
  | .writeStr t => writeStr b t
  | .writeChar c => writeChar b c
  | .alloc n => (alloc b n).map fun r => .ok r.2
  | .reset => some (.ok (reset b))
  | .seek k => some (seekRel b k)

/-- A whole history: stops at the first call that does not return normally. -/
def run (b : Buf) : List Op → Option (Res Buf)
  | [] => some (.ok b)
  | op :: ops =>
    match step b op with
    | none => none
    | some (.ok b') => run b' ops
    | some r => some r

/-! ### Read buffer -/

/-- `m_data`/`m_dataEnd` (the bytes) and `m_dataRead` (an offset, which the code lets become
negative) (inc/clutl/Serialise.h:103-105). -/
structure RBuf where
  data : Bytes
  pos : Int := 0
deriving DecidableEq, Repr

/-- `Read` (src/clReflectUtil/Serialise.cpp:123-129): asserts the upper bound only. -/
def RBuf.read (r : RBuf) (length : Nat) : Res (Bytes × RBuf) :=
  if r.pos + length ≤ r.data.length then
    if 0 ≤ r.pos then .ok ((r.data.drop r.pos.toNat).take length, { r with pos := r.pos + length })
    else if length = 0 then .ok ([], r) else .ub
  else .trap

/-- `ReadAt` (src/clReflectUtil/Serialise.cpp:131-135): an offset for the caller to read from. -/
def RBuf.readAt (r : RBuf) (position : Nat) : Res Nat :=
  if position ≤ r.data.length then .ok position else .trap

/-- `SeekRel` (src/clReflectUtil/Serialise.cpp:137-141): asserts the upper bound only. -/
def RBuf.seekRel (r : RBuf) (off : Int) : Res RBuf :=
  if r.pos + off ≤ r.data.length then .ok { r with pos := r.pos + off } else .trap

/-- Construction from a write buffer (src/clReflectUtil/Serialise.cpp:109-114); undefined cells show
as the given garbage. -/
def ofWriteBuffer (b : Buf) (garbage : UInt8 := 0) : RBuf :=
  { data := b.contents.map (·.getD garbage), pos := 0 }

/-- The calls of a history. -/
inductive ROp where
  | read (n : Nat)
  | readAt (p : Nat)
  | seek (off : Int)
deriving DecidableEq, Repr

def rstep (r : RBuf) : ROp → Res RBuf
  | .read n => do let (_, r') ← r.read n; pure r'
  | .readAt p => do let _ ← r.readAt p; pure r
  | .seek k => r.seekRel k

def rrun (r : RBuf) : List ROp → Res RBuf
  | [] => .ok r
  | op :: ops => do let r' ← rstep r op; rrun r' ops

end Clr.Buffer
