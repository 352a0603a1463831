import Verif.Model.WriteBuffer

/-!
The parameter cache for calling functions, src/clReflectUtil/SerialiseFunction.cpp:14-189.

Simplifications:
* what `LoadJSON` stores in a parameter is not modelled here (see `Verif/Model/JSON.lean`), only whether it reports an error:
  `loads i` for parameter number `i`;
* calls of reflected constructors and destructors are recorded in a log; they do nothing else to the cache;
* each allocation of the buffer's block gets a new number, so that a place is a block number and an offset;
* a growth loop that never ends (no side effects, so undefined in C++) is `ub`.
-/
namespace Clr.Params
open Clr.Buffer (Buf alloc reset)

/-- `clcpp::Qualifier::Operator`. -/
inductive Op where
  | value | pointer | reference
deriving DecidableEq, Repr

/-- What is read of a parameter's type: its size and, for classes and template types, whether it has a reflected constructor
and destructor (`none` for other kinds). -/
structure PType where
  name : Bytes
  size : Nat
  hooks : Option (Bool × Bool)
deriving DecidableEq, Repr

/-- What is read of a parameter (`clcpp::Field`): its number is its `offset`. -/
structure Param where
  type : PType
  op : Op
  offset : Nat
deriving DecidableEq, Repr

/-- `ParameterData::ParamDesc`, inc/clutl/SerialiseFunction.h:50-55; the object's place is a block and an offset in it. -/
structure Desc where
  type : PType
  op : Op
  block : Nat
  off : Nat
deriving DecidableEq, Repr

/-- A call of a constructor or destructor, with the type and the place. -/
inductive Event where
  | construct (type : PType) (block off : Nat)
  | destroy (type : PType) (block off : Nat)
deriving DecidableEq, Repr

/-- `ParameterObjectCache`, inc/clutl/SerialiseFunction.h:81-108, the number of the block in use, and the log. -/
structure Cache where
  buf : Buf := {}
  block : Nat := 0
  params : List Desc := []
  log : List Event := []
deriving DecidableEq, Repr

/-- `ParamAllocSize`, SerialiseFunction.cpp:16-22. -/
def allocSize (p : Param) : Nat := if p.op = .pointer then 8 else p.type.size

/-- `m_Data.Alloc`: the offset; the block is a new one if the buffer has grown (Serialise.cpp:47-69). -/
def allocData (c : Cache) (n : Nat) : Res (Nat × Cache) :=
  match alloc c.buf n with
  | none => .ub
  | some (off, b) => .ok (off, { c with buf := b, block := if c.buf.pos + n > c.buf.cap then c.block + 1 else c.block })

/-- The constructor call in `AllocParameter`, SerialiseFunction.cpp:95-113. -/
def constructs (p : Param) : Bool := p.op != .pointer && (match p.type.hooks with | some (ctor, _) => ctor | none => false)

/-- The destructor call in `DeleteObjects`, SerialiseFunction.cpp:128-145. -/
def destroys (d : Desc) : Bool := d.op != .pointer && (match d.type.hooks with | some (_, dtor) => dtor | none => false)

/-- `ParameterData::PushParameter`, SerialiseFunction.cpp:36-44. -/
def pushParameter (c : Cache) (d : Desc) : Res Cache :=
  if c.params.length < 16 then .ok { c with params := c.params ++ [d] } else .trap

/-- `AllocParameter`, SerialiseFunction.cpp:88-119. -/
def allocParameter (c : Cache) (p : Param) : Res Cache := do
  let r ← allocData c (allocSize p)
  let c := r.2
  let log := if constructs p then c.log ++ [.construct p.type c.block r.1] else c.log
  pushParameter { c with log := log } ⟨p.type, p.op, c.block, r.1⟩

/-- The loop of `DeleteObjects`, SerialiseFunction.cpp:125-146, for a cache of `n` parameters whose current block is `block`: the
calls made.  `GetParameter` asserts that the *number* of parameters is below 16 (line 60).  A destructor call on an object in
a block that is not the current one, and so has been deleted, is undefined. -/
def deleteLoop (n block : Nat) : List Desc → Res (List Event)
  | [] => .ok []
  | d :: ds =>
    if n < 16 then
      if destroys d then
        if d.block = block then do
          let es ← deleteLoop n block ds
          .ok (.destroy d.type d.block d.off :: es)
        else .ub
      else deleteLoop n block ds
    else .trap

/-- `DeleteObjects`, SerialiseFunction.cpp:121-148. -/
def deleteObjects (c : Cache) : Res Cache := do
  let es ← deleteLoop c.params.length c.block c.params
  .ok { c with log := c.log ++ es }

/-- `Init`, SerialiseFunction.cpp:70-86; the total is an `unsigned int`. -/
def init (c : Cache) (params : List Param) : Res Cache := do
  let c ← deleteObjects c
  let total := params.foldl (fun s p => (s + allocSize p) % 2 ^ 32) 0
  let r ← allocData { c with buf := reset c.buf } total
  .ok { r.2 with buf := reset r.2.buf, params := [] }

/-- The parameter stored at an index of `sorted_fields`, SerialiseFunction.cpp:159-166: the last one with that number. -/
def slot (params : List Param) (i : Nat) : Option Param := params.reverse.find? (fun p => p.offset == i)

/-- The loop over the parameters, SerialiseFunction.cpp:175-185, from number `i`, with `n` to go: whether all could be loaded.
Reading an entry of `sorted_fields` that was not set, or outside it, is undefined. -/
def loadLoop (params : List Param) (loads : Nat → Bool) : Nat → Nat → Cache → Res (Bool × Cache)
  | 0, _, c => .ok (true, c)
  | n + 1, i, c =>
    match slot params i with
    | none => .ub
    | some p => do
      let c ← allocParameter c p
      if loads i then loadLoop params loads n (i + 1) c else .ok (false, c)

/-- `BuildParameterObjectCache_JSON`, SerialiseFunction.cpp:150-189; `opens` is whether the text begins with `[`. -/
def build (c : Cache) (params : List Param) (opens : Bool) (loads : Nat → Bool) : Res (Bool × Cache) := do
  let c ← init c params
  if params.all (fun p => p.offset < 16) then
    if opens then loadLoop params loads params.length 0 c else .ok (false, c)
  else .trap

/-- One use of a cache. -/
structure Call where
  params : List Param
  opens : Bool
  loads : Nat → Bool

/-- Several uses of a cache. -/
def builds (c : Cache) : List Call → Res Cache
  | [] => .ok c
  | k :: ks => do
    let r ← build c k.params k.opens k.loads
    builds r.2 ks

/-- A cache from its construction, through its uses, to its destructor (SerialiseFunction.cpp:65-68). -/
def lifetime (calls : List Call) : Res Cache := do
  let c ← builds {} calls
  deleteObjects c

end Clr.Params
