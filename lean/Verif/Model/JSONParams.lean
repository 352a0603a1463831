import Verif.Model.JSON

/-!
Loading the arguments of a function from JSON: `BuildParameterObjectCache_JSON`
(src/clReflectUtil/SerialiseFunction.cpp:150-189) and `LoadJSON` of a field (src/clReflectUtil/SerialiseJSON.cpp:562-570).

Where the parameters' objects lie in the cache and when they are constructed and destroyed is in
`Verif/Model/ParamCache.lean` (C54, C61); here each object is taken from unused memory, whose bytes are what they were, with
the containers in it empty, as their constructors leave them.
-/
namespace Clr.JSON

/-- What `BuildParameterObjectCache_JSON` reads of a parameter: as for a field; its `offset` is its number. -/
abbrev Param := FldInfo × Ty

/-- `sorted_fields[i]`, SerialiseFunction.cpp:159-166: the last of the parameters with that number. -/
def paramAt (params : List Param) (i : Nat) : Option Param := params.reverse.find? (fun p => p.1.offset == i)

/-- `LoadJSON` of a field, SerialiseJSON.cpp:562-570: a new look-ahead token is read, the one that the parser leaves is
dropped.  `n` is the number of steps. -/
def loadParam (e : Env) (n : Nat) (c : Ctx) (m : Mem) (p : Param) (a : Nat) : Out (Ctx × Mem) := do
  let s ← nextTok e { t := {}, c := c, m := m }
  let s ← parseValue e n s (some (p.2, a)) p.1.isPtr p.1.count
  .ok (s.c, s.m)

/-- The loop over the parameters, SerialiseFunction.cpp:175-185, from number `i`, with `k` to go: whether all could be loaded,
the objects made, and memory.  The size of an object is `ParamAllocSize` (16-22).  Reading an entry of `sorted_fields` that
was not set is undefined. -/
def paramLoop (e : Env) (n : Nat) (params : List Param) : Nat → Nat → Ctx → Mem → Out (Bool × List Nat × Mem)
  | 0, _, _, m => .ok (true, [], m)
  | k + 1, i, c, m =>
    match paramAt params i with
    | none => .ub
    | some p => do
      let a := m.alloc (strideOf p.2 p.1.isPtr)
      let r ← loadParam e n c a.2 p a.1
      if r.1.err.code ≠ .none then .ok (false, [a.1], r.2)
      else do
        let q ← paramLoop e n params k (i + 1) r.1 r.2
        .ok (q.1, a.1 :: q.2.1, q.2.2)

/-- `BuildParameterObjectCache_JSON`, SerialiseFunction.cpp:150-189. -/
def buildParams (e : Env) (text : Bytes) (m : Mem) (params : List Param) : Out (Bool × List Nat × Mem) :=
  if params.all (fun p => p.1.offset < 16) then do
    let s ← nextTok e { t := {}, c := { rest := text }, m := m }
    if s.t.type ≠ .lbracket then .ok (false, [], m)
    else paramLoop e (fuelFor text) params params.length 0 s.c m
  else .trap

end Clr.JSON
