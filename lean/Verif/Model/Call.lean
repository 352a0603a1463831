import Verif.Basic
/-
Model of calling reflected functions: `CallFunction` of inc/clcpp/FunctionCall.h, and the calls for 32-bit Microsoft code of
src/clReflectUtil/SerialiseFunction.cpp:190-303, with the machine instructions they are written in.

What a called function does is not modelled: a call is an outcome.
-/
namespace Clr.Call

/-! ### CallFunction -/

/-- What is read of a `clcpp::Function`: its address and the number of its parameters. -/
structure Function where
  address : Nat
  nbParams : Nat
deriving DecidableEq

/-- `CallFunction` with `n` arguments (FunctionCall.h:71-121): the address called. -/
def callFunction (f : Function) (n : Nat) : Res Nat :=
  if n = 0 then
    if f.address ≠ 0 then .ok f.address else .trap
  else if f.nbParams = n then
    if f.address ≠ 0 then .ok f.address else .trap
  else .trap

/-! ### Calls with parameters from a cache -/

/-- `clcpp::Qualifier::Operator`. -/
inductive Op where
  | value | pointer | reference
deriving DecidableEq

/-- `ParameterData::ParamDesc` (inc/clutl/SerialiseFunction.h:50-55): of the type its size is read. -/
structure Desc where
  size : BitVec 32
  op : Op
  object : BitVec 32
deriving DecidableEq

/-- Memory: a byte, or nothing where there is no object. -/
abbrev Mem := BitVec 32 → Option UInt8

/-- Reading bytes from increasing addresses. Where there is no object it is undefined. -/
def read (m : Mem) (a : BitVec 32) : Nat → Res Bytes
  | 0 => .ok []
  | n + 1 =>
    match m a with
    | none => .ub
    | some b => (read m (a + 1) n).map (b :: ·)

/-- Four bytes of a 32-bit value, as they lie in memory. -/
def le32 (v : BitVec 32) : Bytes := (List.range 4).map fun i => UInt8.ofNat (v.toNat / 256 ^ i % 256)

/-- The value that four bytes are. -/
def unle32 (b : Bytes) : BitVec 32 := BitVec.ofNat 32 (b.foldr (fun x r => x.toNat + 256 * r) 0)

/-- `add ecx, 3; and ecx, 0FFFFFFFCh` (SerialiseFunction.cpp:239-240). -/
def roundUp (size : BitVec 32) : BitVec 32 := (size + 3) &&& 0xFFFFFFFC

/-- What pushing a parameter puts on the stack (SerialiseFunction.cpp:212-249), from the lowest address on: the pointer that
the object holds, the address of the object, or the object with its size rounded up, copied in words of four bytes. -/
def pushed (m : Mem) (p : Desc) : Res Bytes :=
  match p.op with
  | .pointer => read m p.object 4
  | .reference => .ok (le32 p.object)
  | .value => read m p.object ((roundUp p.size >>> 2).toNat * 4)

/-- The machine: bytes above the stack pointer that were pushed, and how many were pushed according to `stack_size`. -/
structure Stack where
  bytes : Bytes
  size : BitVec 32

/-- What is added to `stack_size` (SerialiseFunction.cpp:219, 229, 242). -/
def pushSize (p : Desc) : BitVec 32 := if p.op = .value then roundUp p.size else 4

/-- One parameter (SerialiseFunction.cpp:208-249). -/
def push (m : Mem) (s : Stack) (p : Desc) : Res Stack := do
  let b ← pushed m p
  .ok ⟨b ++ s.bytes, s.size + pushSize p⟩

/-- `GetParameter` (SerialiseFunction.cpp:57-62): it asserts that there are fewer than 16 and does not look at the index. -/
def getParameter (ps : List Desc) (i : Nat) : Res Desc :=
  if ps.length < 16 then
    match ps[i]? with
    | none => .ub
    | some p => .ok p
  else .trap

/-- The loop (SerialiseFunction.cpp:208-250) from the last parameter down to number `last`: `k` to go, the next is `last + k - 1`. -/
def pushLoop (m : Mem) (ps : List Desc) (last : Nat) : Nat → Stack → Res Stack
  | 0, s => .ok s
  | k + 1, s => do
    let p ← getParameter ps (last + k)
    let s ← push m s p
    pushLoop m ps last k s

/-- A call that is made: the address, the register `ecx` for the calls with a `this`, and the arguments on the stack. -/
structure Made where
  address : BitVec 32
  this : Option (BitVec 32)
  args : Bytes
deriving DecidableEq

/-- What a call leaves: the result, the call if there was one, and the bytes left on the stack. A called function with a
`this` takes its arguments off the stack. -/
structure Outcome where
  result : Bool
  made : Option Made
  left : Int
deriving DecidableEq

/-- `CallFunction_x86_32_msvc` (SerialiseFunction.cpp:193-284). A call of address 0 is undefined. -/
def callX86 (m : Mem) (address : BitVec 32) (nbParams : Nat) (ps : List Desc) (thiscall : Bool) : Res Outcome :=
  if nbParams ≠ ps.length then .ok ⟨false, none, 0⟩
  else do
    let last := if thiscall then 1 else 0
    let s ← pushLoop m ps last (nbParams - last) ⟨[], 0⟩
    if thiscall then do
      let p ← getParameter ps 0
      let b ← read m p.object 4
      let this := unle32 b
      if this = 0 then .ok ⟨true, none, s.bytes.length⟩
      else if address = 0 then .ub
      else .ok ⟨true, some ⟨address, some this, s.bytes⟩, 0⟩
    else if address = 0 then .ub
    else .ok ⟨true, some ⟨address, none, s.bytes⟩, s.bytes.length - s.size.toNat⟩

/-- `CallFunction_x86_32_msvc_cdecl` (SerialiseFunction.cpp:286-293). -/
def callCdecl (m : Mem) (address : BitVec 32) (nbParams : Nat) (ps : List Desc) : Res Outcome :=
  if nbParams ≠ ps.length then .ok ⟨false, none, 0⟩ else callX86 m address nbParams ps false

/-- `CallFunction_x86_32_msvc_thiscall` (SerialiseFunction.cpp:295-302). -/
def callThis (m : Mem) (address : BitVec 32) (nbParams : Nat) (ps : List Desc) : Res Outcome :=
  if nbParams ≠ ps.length then .ok ⟨false, none, 0⟩ else callX86 m address nbParams ps true

end Clr.Call
