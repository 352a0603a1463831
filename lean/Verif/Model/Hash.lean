import Verif.Basic
/-
Model of the hash functions of src/clReflectCpp/clcpp.cpp and of the function unique ids
of src/clReflectCore/Database.cpp.
-/
namespace Clr.Hash

/-- `rotl` (src/clReflectCpp/clcpp.cpp:44-47). -/
def rotl (v : BitVec 32) (bits : Nat) : BitVec 32 := (v <<< bits) ||| (v >>> (32 - bits))

/-- `fmix` (src/clReflectCpp/clcpp.cpp:49-58). -/
def fmix (h : BitVec 32) : BitVec 32 :=
  let h := h ^^^ (h >>> 16)
  let h := h * 0x85ebca6b#32
  let h := h ^^^ (h >>> 13)
  let h := h * 0xc2b2ae35#32
  let h := h ^^^ (h >>> 16)
  h

/-- The scrambling of one block or of the tail: `k1 *= c1; k1 = rotl(k1, 15); k1 *= c2`
(src/clReflectCpp/clcpp.cpp:78-80 and 98-100). -/
def scramble (k : BitVec 32) : BitVec 32 := rotl (k * 0xcc9e2d51#32) 15 * 0x1b873593#32

/-- One iteration of the body loop (src/clReflectCpp/clcpp.cpp:76-84). -/
def round (h k : BitVec 32) : BitVec 32 :=
  rotl (h ^^^ scramble k) 13 * 5#32 + 0xe6546b64#32

/-- `blocks[i]`: four bytes read as a little-endian 32-bit word
(src/clReflectCpp/clcpp.cpp:73-76; the target is little-endian). -/
def word (a b c d : UInt8) : BitVec 32 :=
  (d.toBitVec ++ c.toBitVec ++ b.toBitVec ++ a.toBitVec : BitVec 32)

/-- The body loop over all complete blocks, returning the hash state and the unread tail
(src/clReflectCpp/clcpp.cpp:72-85), for any round function `f`.  The C++ indexes backwards-biased
(`blocks[i]`, `i` from `-nb_blocks` to `-1`), which visits the blocks first to last. -/
def walk (f : BitVec 32 → UInt8 → UInt8 → UInt8 → UInt8 → BitVec 32) :
    Bytes → BitVec 32 → BitVec 32 × Bytes
  | a :: b :: c :: d :: rest, h => walk f rest (f h a b c d)
  | rest, h => (h, rest)

/-- The body loop with murmur's round (src/clReflectCpp/clcpp.cpp:72-85). -/
def body (data : Bytes) (seed : BitVec 32) : BitVec 32 × Bytes :=
  walk (fun h a b c d => round h (word a b c d)) data seed

/-- The fall-through `switch (len & 3)` (src/clReflectCpp/clcpp.cpp:88-102). -/
def tail (h : BitVec 32) : Bytes → BitVec 32
  | [a] => h ^^^ scramble (a.toBitVec.setWidth 32)
  | [a, b] => h ^^^ scramble ((b.toBitVec.setWidth 32 <<< 8) ^^^ a.toBitVec.setWidth 32)
  | [a, b, c] => h ^^^ scramble ((c.toBitVec.setWidth 32 <<< 16) ^^^ (b.toBitVec.setWidth 32 <<< 8)
      ^^^ a.toBitVec.setWidth 32)
  | _ => h

/-- `MurmurHash3` (src/clReflectCpp/clcpp.cpp:63-108) on a buffer of known length. -/
def murmur (data : Bytes) (seed : BitVec 32) : BitVec 32 :=
  let (h, t) := body data seed
  fmix (tail h t ^^^ BitVec.ofNat 32 data.length)

/-- `strlen` + the bytes before the terminator (src/clReflectCpp/clcpp.cpp:110-116).
`none`: no terminator inside the readable memory, i.e. a read past its end. -/
def cstr : Bytes → Option Bytes
  | [] => none
  | c :: cs => if c = 0 then some [] else (cstr cs).map (c :: ·)

/-- `HashData` (src/clReflectCpp/clcpp.cpp:323-326): reads `length` bytes of the memory at `data`;
undefined when fewer are readable. -/
def hashData (mem : Bytes) (length : Nat) (seed : BitVec 32) : Res (BitVec 32) :=
  if length ≤ mem.length then .ok (murmur (mem.take length) seed) else .ub

/-- `HashNameString` (src/clReflectCpp/clcpp.cpp:328-331). -/
def hashNameString (mem : Bytes) (seed : BitVec 32 := 0#32) : Res (BitVec 32) :=
  match cstr mem with
  | some s => .ok (murmur s seed)
  | none => .ub

/-- The hash of a NUL-free text, i.e. of `text.c_str()`. -/
def hashText (s : Bytes) : BitVec 32 := murmur s 0#32

/-- The four bytes of a word in memory (little-endian), as seen through `&b`. -/
def bytesLE (w : BitVec 32) : Bytes :=
  [⟨w.extractLsb' 0 8⟩, ⟨w.extractLsb' 8 8⟩, ⟨w.extractLsb' 16 8⟩, ⟨w.extractLsb' 24 8⟩]

/-- `MixHashes` (src/clReflectCpp/clcpp.cpp:333-336). -/
def mixHashes (a b : BitVec 32) : BitVec 32 := murmur (bytesLE b) a

/-- `Qualifier::Operator` (src/clReflectCore/Database.h:74-101). -/
inductive Op where
  | value | pointer | reference
deriving DecidableEq, Repr

/-- The part of a parameter `Field` that enters the unique id
(src/clReflectCore/Database.cpp:19-27). -/
structure Param where
  typeText : Bytes
  op : Op
  isConst : Bool
deriving DecidableEq, Repr

/-- The qualified type name built by `CalcFieldHash` (src/clReflectCore/Database.cpp:22-25). -/
def Param.text (p : Param) : Bytes :=
  (if p.isConst then b!"const " else []) ++ p.typeText ++
    (match p.op with | .pointer => b!"*" | .reference => b!"&" | .value => [])

/-- `CalcFieldHash` (src/clReflectCore/Database.cpp:19-27). Type names contain no NUL. -/
def fieldHash (p : Param) : BitVec 32 := hashText p.text

/-- `CalculateFunctionUniqueID` (src/clReflectCore/Database.cpp:31-42). -/
def uniqueId (ps : List Param) : BitVec 32 :=
  ps.foldl (fun id p => mixHashes id (fieldHash p)) 0#32

end Clr.Hash
