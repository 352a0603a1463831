import Verif.Model.Database
import Verif.Model.Search
import Verif.Model.CArray
/-
Model of src/clReflectExport/CppExport.cpp: `BuildCppExport` (CppExport.cpp:1093-1227), which turns the offline
database into the runtime database: it copies every primitive with the *hashes* of the primitives it refers
to stored in the pointers, and then replaces hashes by addresses, builds the child arrays of all scopes,
sorts them, computes flag bits and nulls or removes what could not be resolved.

Objects are named by table and index (`Ref`). A pointer is the address of an object or a raw number (a null
pointer or a hash that has been stored in it, `HASH_TO_POINTER`, CppExport.cpp:47-49). Addresses are numbers given by
the placement of the tables (`Env`), because the code compares pointers by their low 32 bits
(`POINTER_TO_HASH`, CppExport.cpp:47) and by range.
Not modelled: the member values nobody refers to (sizes, offsets, qualifiers, container flags), log output,
running out of the 5 MB arena (C23), and the address space beyond the placement of the tables.
-/
namespace Clr.Export
open Clr.DB (hashOf)

/-- The tables of `clcpp::internal::DatabaseMem` (inc/clcpp/clcpp_internal.h, filled at CppExport.cpp:1105-1119). -/
inductive K where
  | type | constant | enum | field | function | cls | template | instance | space
  | flagAttr | intAttr | floatAttr | primAttr | textAttr | container
deriving DecidableEq, Repr

/-- An object of the runtime database: its table and its index there. -/
abbrev Ref := K × Nat

/-- A pointer value. -/
inductive Ptr where
  | raw (n : Nat)
  | obj (r : Ref)
deriving DecidableEq, Repr

/-- The pointer array members of scopes (inc/clcpp/clcpp.h: `Enum`, `Function`, `Class`, `Namespace`,
`Template`, `Field`, `Type::base_types`). -/
inductive Slot where
  | constants | parameters | enums | classes | methods | fields | templates
  | namespaces | types | functions | instances | attributes | bases
deriving DecidableEq, Repr

/-- One exported object, the union of the members of all exported types that take part in the linking. -/
structure Obj where
  /-- `name.hash` -/
  hash : UInt32 := 0
  /-- `name.text`, `none` for a null pointer -/
  text : Option Bytes := none
  /-- `Primitive::parent` -/
  parent : Ptr := .raw 0
  /-- `Function::unique_id`, `Field::parent_unique_id` -/
  uid : UInt32 := 0
  /-- `Field::type` -/
  type : Ptr := .raw 0
  /-- `TemplateType::parameter_types` -/
  args : List Ptr := []
  /-- `PrimitiveAttribute::primitive` -/
  target : Ptr := .raw 0
  /-- `IntAttribute::value` -/
  value : BitVec 32 := 0
  /-- `flag_attributes` -/
  flags : BitVec 32 := 0
  /-- `Function::return_parameter` -/
  ret : Option Ref := none
  /-- `constructor` and `destructor` of classes and template types -/
  ctor : Option Ref := none
  dtor : Option Ref := none
  /-- `Type::ci`, `Field::ci` -/
  ci : Option Ref := none
  /-- `ContainerInfo::read_iterator_type`, `write_iterator_type` -/
  readIt : Ptr := .raw 0
  writeIt : Ptr := .raw 0
  /-- the child arrays -/
  kids : Slot → List Ref := fun _ => []

/-- Where the tables lie, what freshly allocated memory contains and how `std::sort` orders a range of
pointers given their keys. -/
structure Env where
  base : K → Nat
  stride : K → Nat
  junk : Ptr
  sort : (Ref → UInt32) → List Ref → List Ref

/-- Address of an object: `&table[i]`. -/
def Env.addr (env : Env) (r : Ref) : Nat := env.base r.1 + r.2 * env.stride r.1

/-- A pointer as a number. -/
def Env.num (env : Env) : Ptr → Nat
  | .raw n => n
  | .obj r => env.addr r

/-- `POINTER_TO_HASH` (CppExport.cpp:47): the low 32 bits of the pointer. -/
def Env.hash (env : Env) (p : Ptr) : UInt32 := UInt32.ofNat (env.num p)

/-- The runtime database under construction. -/
structure St where
  count : K → Nat
  get : Ref → Obj
  /-- the keys of `CppExport::name_map` -/
  names : List UInt32
  /-- `DatabaseMem::type_primitives` -/
  typePrims : List Ref
  /-- `DatabaseMem::global_namespace` -/
  globals : Slot → List Ref

/-- All objects of a table, in table order. -/
def St.all (st : St) (k : K) : List Ref := (List.range (st.count k)).map fun i => (k, i)

/-- Overwrite one object. -/
def St.set (st : St) (r : Ref) (o : Obj) : St :=
  { st with get := fun s => if s = r then o else st.get s }

/-- Change every object of a table, for the loops `for (i = 0; i < primitives.size; i++)` whose iterations
do not depend on one another. -/
def St.map (st : St) (k : K) (f : Ref → Obj → Obj) : St :=
  { st with get := fun s => if s.1 = k then f s (st.get s) else st.get s }

/-- Change one array member of an object. -/
def Obj.setKids (o : Obj) (slot : Slot) (a : List Ref) : Obj :=
  { o with kids := fun s => if s = slot then a else o.kids s }

/-! ### Copying (CppExport.cpp:62-212) -/

/-- `HASH_TO_POINTER` (CppExport.cpp:49). -/
def ofHash (h : UInt32) : Ptr := .raw h.toNat

/-- `cppexp.name_map[hash]` (CppExport.cpp:73-80, 206): the text of a name, null when the name is unknown. -/
def textOf (db : DB.Database) (h : UInt32) : Option Bytes :=
  (db.names.find? fun n => n.hash == h).map (·.text)

/-- `BuildCArray` and `CopyPrimitive(Primitive&)` (CppExport.cpp:98-102, 191-212). -/
def copyPrim (db : DB.Database) (p : DB.Prim) : Obj :=
  { hash := p.name.hash, text := textOf db p.name.hash, parent := ofHash p.parent.hash }

/-- `CopyPrimitive` overloads (CppExport.cpp:98-171) and `CopyObject<ContainerInfo>` (CppExport.cpp:183-189), by table. -/
def rows (db : DB.Database) : K → List Obj
  | .type => db.types.map fun p => copyPrim db p.toPrim
  | .constant => db.enumConstants.map fun p => copyPrim db p.toPrim
  | .enum => db.enums.map fun p => copyPrim db p.toPrim
  | .field => db.fields.map fun p =>
      { copyPrim db p.toPrim with type := ofHash p.type.hash, uid := p.parentUniqueId }
  | .function => db.functions.map fun p => { copyPrim db p.toPrim with uid := p.uniqueId }
  | .cls => db.classes.map fun p => copyPrim db p.toPrim
  | .template => db.templates.map fun p => copyPrim db p.toPrim
  | .instance => db.templateTypes.map fun p =>
      { copyPrim db p.toPrim with
        args := [ofHash p.a0.type.hash, ofHash p.a1.type.hash, ofHash p.a2.type.hash, ofHash p.a3.type.hash] }
  | .space => db.namespaces.map fun p => copyPrim db p.toPrim
  | .flagAttr => db.flagAttributes.map fun p => copyPrim db p.toPrim
  | .intAttr => db.intAttributes.map fun p => { copyPrim db p.toPrim with value := p.value.toBitVec }
  | .floatAttr => db.floatAttributes.map fun p => copyPrim db p.toPrim
  | .primAttr => db.primitiveAttributes.map fun p => { copyPrim db p.toPrim with target := ofHash p.value.hash }
  | .textAttr => db.textAttributes.map fun p => copyPrim db p.toPrim
  | .container => db.containerInfos.map fun p =>
      { hash := p.name.hash, text := textOf db p.name.hash,
        readIt := ofHash p.readIterator.hash, writeIt := ofHash p.writeIterator.hash }

/-- All tables of primitives, with the containers. -/
def kinds : List K :=
  [.type, .constant, .enum, .field, .function, .cls, .template, .instance, .space,
   .flagAttr, .intAttr, .floatAttr, .primAttr, .textAttr, .container]

/-- The keys of the name map: the database's names (`BuildNames`, CppExport.cpp:62-95) and, because
`name_map[hash]` adds what it does not find, the names of all primitives (CppExport.cpp:206). -/
def nameKeys (db : DB.Database) : List UInt32 :=
  db.names.map (·.hash) ++ kinds.flatMap fun k => (rows db k).map (·.hash)

/-- The raw copy (CppExport.cpp:1103-1126), and `GatherTypePrimitives` (CppExport.cpp:638-655). -/
def copied (db : DB.Database) : St :=
  let count := fun k => (rows db k).length
  let all := fun k => (List.range (count k)).map fun i => ((k, i) : Ref)
  { count := count
    get := fun r => (rows db r.1).getD r.2 {}
    names := nameKeys db
    typePrims := all .type ++ all .cls ++ all .enum ++ all .instance
    globals := fun _ => [] }

/-! ### Parenting (CppExport.cpp:214-359) -/

/-- `ParentAndChildMatch` (CppExport.cpp:274-281): parameters must carry the identity of their function. -/
def matches' (pk : K) (p : Obj) (ck : K) (c : Obj) : Bool :=
  if pk = .function ∧ ck = .field then p.uid == c.uid else true

/-- The search for a parent in `Parent` (CppExport.cpp:292-306): the first parent in the map under the child's
recorded hash that matches. The map is a multimap from `keys i` to parent `i` filled in table order, equal
keys keep that order. -/
def findParent (env : Env) (st : St) (pk : K) (keys : Nat → UInt32) (c : Ref) : Option Nat :=
  (List.range (st.count pk)).find? fun i =>
    keys i == env.hash (st.get c).parent && matches' pk (st.get (pk, i)) c.1 (st.get c)

/-- The first loop of `Parent` (CppExport.cpp:289-306); `refs` are the reference counts. -/
def assign (env : Env) (pk : K) (keys : Nat → UInt32) : List Ref → St → (Nat → Nat) → St × (Nat → Nat)
  | [], st, refs => (st, refs)
  | c :: cs, st, refs =>
    match findParent env st pk keys c with
    | some i =>
      assign env pk keys cs (st.set c { st.get c with parent := .obj (pk, i) })
        (fun j => if j = i then refs i + 1 else refs j)
    | none => assign env pk keys cs st refs

/-- The second loop (CppExport.cpp:308-321): an array for every parent with references, its last entry holding the
number of entries written so far. -/
def allocate (env : Env) (refs : Nat → Nat) (i : Nat) : List Ptr :=
  if refs i = 0 then [] else List.replicate (refs i - 1) env.junk ++ [.raw 0]

/-- One iteration of the third loop (CppExport.cpp:324-344). -/
def fillOne (env : Env) (st : St) (pk : K) (c : Ref) (arrays : Nat → List Ptr) : Res (Nat → List Ptr) :=
  if env.base pk ≤ env.num (st.get c).parent ∧
      env.num (st.get c).parent < env.base pk + st.count pk * env.stride pk then
    match (st.get c).parent with
    | .obj (k, i) =>
      if k = pk then
        match (arrays i).getLast? with
        | some (.raw cur) =>
          if cur < (arrays i).length then
            let a := (arrays i).set cur (.obj c)
            let b := if cur + 1 = (arrays i).length then a else a.set ((arrays i).length - 1) (.raw (cur + 1))
            .ok fun j => if j = i then b else arrays j
          else .trap
        | some (.obj _) => .ub
        | none => .trap
      else .ub
    | .raw _ => .ub
  else .ok arrays

/-- The third loop (CppExport.cpp:324-344). -/
def fill (env : Env) (st : St) (pk : K) : List Ref → (Nat → List Ptr) → Res (Nat → List Ptr)
  | [], arrays => .ok arrays
  | c :: cs, arrays => (fillOne env st pk c arrays).bind (fill env st pk cs)

/-- The entries of an array as objects: an entry that is not a pointer to a child is dereferenced by
`SortPrimitives`, so it counts as undefined behaviour here. -/
def asRefs : List Ptr → Res (List Ref)
  | [] => .ok []
  | .obj r :: ps => (asRefs ps).bind fun rs => .ok (r :: rs)
  | .raw _ :: _ => .ub

/-- The finished arrays of parents `0 .. n - 1`. -/
def finish (arrays : Nat → List Ptr) : Nat → Res (List (List Ref))
  | 0 => .ok []
  | n + 1 => (finish arrays n).bind fun l => (asRefs (arrays n)).bind fun a => .ok (l ++ [a])

/-- `Parent` (CppExport.cpp:283-345). -/
def parent (env : Env) (pk : K) (slot : Slot) (keys : Nat → UInt32) (children : List Ref) (st : St) : Res St :=
  let a := assign env pk keys children st (fun _ => 0)
  (fill env a.1 pk children (allocate env a.2)).bind fun arrays =>
  (finish arrays (st.count pk)).bind fun ks =>
  .ok (a.1.map pk fun r o => o.setKids slot (ks.getD r.2 (o.kids slot)))

/-- The map of a scope by name hash (`ParentMap` constructor, CppExport.cpp:226-239). -/
def byName (st : St) (k : K) (i : Nat) : UInt32 := (st.get (k, i)).hash

/-- The calls of `Parent` in CppExport.cpp:1137-1150: scope table, array member, child table. -/
def hierarchy : List (K × Slot × K) :=
  [(.enum, .constants, .constant),
   (.function, .parameters, .field),
   (.cls, .enums, .enum),
   (.cls, .classes, .cls),
   (.cls, .methods, .function),
   (.cls, .fields, .field),
   (.cls, .templates, .template),
   (.space, .namespaces, .space),
   (.space, .types, .type),
   (.space, .enums, .enum),
   (.space, .classes, .cls),
   (.space, .functions, .function),
   (.space, .templates, .template),
   (.template, .instances, .instance)]

/-- A sequence of calls of `Parent`. -/
def parents (env : Env) : List (K × Slot × K) → St → Res St
  | [], st => .ok st
  | (pk, slot, ck) :: rest, st => (parent env pk slot (byName st pk) (st.all ck) st).bind (parents env rest)

/-- The text of an object a pointer refers to: reading through anything else is undefined. -/
def ptrText (st : St) : Ptr → Res Bytes
  | .obj r => match (st.get r).text with
    | some t => .ok t
    | none => .ub
  | .raw _ => .ub

/-- One key of `ParentMap<Field>` (CppExport.cpp:257-268): the hash of the scoped name of a field. -/
def fieldKey (st : St) (i : Nat) : Res UInt32 :=
  (ptrText st (st.get (.field, i)).parent).bind fun scope =>
  match (st.get (.field, i)).text with
  | some t => .ok (hashOf (scope ++ b!"::" ++ t))
  | none => .ub

/-- The keys of `ParentMap<Field>` for fields `0 .. n - 1`. -/
def fieldKeys (st : St) : Nat → Res (List UInt32)
  | 0 => .ok []
  | n + 1 => (fieldKeys st n).bind fun l => (fieldKey st n).bind fun h => .ok (l ++ [h])

/-- `BuildAttributePtrArray` (CppExport.cpp:361-384). -/
def allAttributes (st : St) : List Ref :=
  st.all .flagAttr ++ st.all .intAttr ++ st.all .floatAttr ++ st.all .primAttr ++ st.all .textAttr

/-- CppExport.cpp:1154-1163. -/
def parentAttributes (env : Env) (st : St) : Res St :=
  (fieldKeys st (st.count .field)).bind fun fks =>
  (parent env .enum .attributes (byName st .enum) (allAttributes st) st).bind fun st =>
  (parent env .field .attributes (fun i => fks.getD i 0) (allAttributes st) st).bind fun st =>
  (parent env .function .attributes (byName st .function) (allAttributes st) st).bind fun st =>
  parent env .cls .attributes (byName st .cls) (allAttributes st) st

/-! ### Linking, return values, the global namespace (CppExport.cpp:410-483, 569-636) -/

/-- The body of `Link` (CppExport.cpp:425-434, 452-461): the first type under the hash stored in the pointer
(`multimap::find`, libstdc++ and libc++ return the first of equal keys). -/
def link (env : Env) (st : St) (p : Ptr) : Ptr :=
  match st.typePrims.find? fun r => (st.get r).hash == env.hash p with
  | some r => .obj r
  | none => p

/-- CppExport.cpp:1166-1167. -/
def linkAll (env : Env) (st : St) : St :=
  let st' := st.map .field fun _ o => { o with type := link env st o.type }
  st'.map .instance fun _ o => { o with args := o.args.map (link env st) }

/-- `HashNameString("return")` (CppExport.cpp:572). -/
def returnHash : UInt32 := hashOf b!"return"

/-- `ReturnParameterIndex` and the loop body of `AssignReturnParameters` (CppExport.cpp:569-595). -/
def assignReturn (st : St) (o : Obj) : Obj :=
  match (o.kids .parameters).findIdx? fun p => (st.get p).hash == returnHash with
  | none => o
  | some i =>
    match CArray.unstableRemove ⟨o.kids .parameters, (o.kids .parameters).length⟩ i with
    | .ok a => { o with ret := (o.kids .parameters)[i]? }.setKids .parameters a.elems
    | _ => o

/-- `GatherGlobalPrimitives` (CppExport.cpp:612-626). -/
def unparented (env : Env) (st : St) (k : K) : List Ref :=
  (st.all k).filter fun r => env.num (st.get r).parent = 0

/-- `BuildGlobalNamespace` (CppExport.cpp:628-636). -/
def buildGlobals (env : Env) (st : St) : St :=
  { st with globals := fun
    | .namespaces => unparented env st .space
    | .types => unparented env st .type
    | .enums => unparented env st .enum
    | .classes => unparented env st .cls
    | .functions => unparented env st .function
    | .templates => unparented env st .template
    | s => st.globals s }

/-! ### Sorting (CppExport.cpp:657-720) -/

/-- The array members each `SortPrimitives` overload sorts. -/
def sortedSlots : K → List Slot
  | .enum => [.bases, .constants, .attributes]
  | .field => [.attributes]
  | .function => [.parameters, .attributes]
  | .cls => [.bases, .enums, .classes, .methods, .fields, .attributes, .templates]
  | .instance => [.bases]
  | .template => [.instances]
  | .space => [.namespaces, .types, .enums, .classes, .functions, .templates]
  | _ => []

/-- `SortPrimitives` for one array of pointers (CppExport.cpp:662-666). -/
def sortRefs (env : Env) (st : St) (l : List Ref) : List Ref := env.sort (fun r => (st.get r).hash) l

/-- CppExport.cpp:1179-1186. -/
def sortAll (env : Env) (st : St) : St :=
  { st with
    get := fun r =>
      let o := st.get r
      { o with kids := fun s => if s ∈ sortedSlots r.1 then sortRefs env st (o.kids s) else o.kids s }
    typePrims := sortRefs env st st.typePrims }

/-! ### Containers, base types, constructors (CppExport.cpp:464-567, 722-779) -/

/-- `FindPrimitive` over the sorted type table. -/
def findType (st : St) (h : UInt32) : Res (Option Ref) := Search.find st.typePrims (fun r => (st.get r).hash) h

/-- `LinkContainerIterator` (CppExport.cpp:464-483). -/
def linkIterator (env : Env) (st : St) (p : Ptr) : Res Ptr :=
  if env.num p = 0 then .ok (.raw 0)
  else if env.hash p ∈ st.names then
    (findType st (env.hash p)).bind fun
      | some r => .ok (.obj r)
      | none => .ok (.raw 0)
  else .ok (.raw 0)

/-- The last of the equal keys in a `std::map` filled with `map[key] = value` in table order. -/
def findLast (st : St) (k : K) (h : UInt32) : Option Ref :=
  (st.all k).reverse.find? fun r => (st.get r).hash == h

/-- Parenting a container (CppExport.cpp:508-527): to the type `t` of its name if there is one, else to every
instance of the template of its name, else to the first field with the scoped name. -/
def attach (fks : List UInt32) (st : St) (i : Nat) (t : Option Ref) : St :=
  match t with
  | some t => st.set t { st.get t with ci := some (.container, i) }
  | none =>
    match findLast st .template (st.get (.container, i)).hash with
    | some t => { st with get := fun r =>
        if r ∈ (st.get t).kids .instances then { st.get r with ci := some (.container, i) } else st.get r }
    | none =>
      match (List.range (st.count .field)).find? fun j => fks.getD j 0 == (st.get (.container, i)).hash with
      | some j => st.set (.field, j) { st.get (.field, j) with ci := some (.container, i) }
      | none => st

/-- The loop body of `LinkContainerInfos` (CppExport.cpp:497-528). -/
def linkContainer (env : Env) (fks : List UInt32) (st : St) (i : Nat) : Res St :=
  (linkIterator env st (st.get (.container, i)).readIt).bind fun rd =>
  (linkIterator env st (st.get (.container, i)).writeIt).bind fun wr =>
  (findType st (st.get (.container, i)).hash).bind fun t =>
  .ok (attach fks (st.set (.container, i) { st.get (.container, i) with readIt := rd, writeIt := wr }) i t)

/-- `LinkContainerInfos` (CppExport.cpp:485-529). -/
def linkContainers (env : Env) (fks : List UInt32) : List Nat → St → Res St
  | [], st => .ok st
  | i :: is, st => (linkContainer env fks st i).bind (linkContainers env fks is)

/-- The first loop of `BuildBaseClassArrays` (CppExport.cpp:535-557): the base types collected per derived type. -/
def collectBases (st : St) : List DB.TypeInheritance → (Ref → List Ref) → Res (Ref → List Ref)
  | [], m => .ok m
  | t :: ts, m =>
    (findType st t.base.hash).bind fun
      | none => collectBases st ts m
      | some b => (findType st t.derived.hash).bind fun
        | none => collectBases st ts m
        | some d => collectBases st ts (fun r => if r = d then m d ++ [b] else m r)

/-- `BuildBaseClassArrays` (CppExport.cpp:531-567). -/
def buildBases (db : DB.Database) (st : St) : Res St :=
  (collectBases st db.inheritances (fun _ => [])).bind fun m =>
  .ok { st with get := fun r => if m r = [] then st.get r else (st.get r).setKids .bases (m r) }

/-- `FindPrimitive` over a sorted method array; the text is the scope's, null text is undefined
(CppExport.cpp:733). -/
def findMethod (st : St) (o : Obj) (suffix : Bytes) : Res (Option Ref) :=
  match o.text with
  | some t => Search.find (o.kids .methods) (fun r => (st.get r).hash) (hashOf (t ++ suffix))
  | none => .ub

/-- `FindClassConstructors` (CppExport.cpp:722-740), one class. -/
def classConstructors (st : St) (r : Ref) : Res St :=
  (findMethod st (st.get r) b!"::ConstructObject").bind fun c =>
  (findMethod st (st.get r) b!"::DestructObject").bind fun d =>
  .ok (st.set r { st.get r with ctor := c, dtor := d })

/-- The first function with a name hash (`function_map.insert` keeps the first, CppExport.cpp:747-753). -/
def firstFunction (st : St) (h : UInt32) : Option Ref :=
  (st.all .function).find? fun r => (st.get r).hash == h

/-- Point an optional function back to its template type (CppExport.cpp:767-777). -/
def adopt (st : St) (f : Option Ref) (r : Ref) : St :=
  match f with
  | some f => st.set f { st.get f with parent := .obj r }
  | none => st

/-- `FindTemplateTypeConstructors` (CppExport.cpp:742-779), one template type. -/
def instanceConstructors (st : St) (r : Ref) : Res St :=
  match (st.get r).text with
  | none => .ub
  | some t =>
    let c := firstFunction st (hashOf (t ++ b!"::ConstructObject"))
    let d := firstFunction st (hashOf (t ++ b!"::DestructObject"))
    let st := st.set r { st.get r with
      ctor := c <|> (st.get r).ctor, dtor := d <|> (st.get r).dtor }
    .ok (adopt (adopt st c r) d r)

/-- A loop over objects. -/
def forAll (f : St → Ref → Res St) : List Ref → St → Res St
  | [], st => .ok st
  | r :: rs, st => (f st r).bind (forAll f rs)

/-! ### Flag attributes (CppExport.cpp:781-890) -/

/-- `clcpp::attrFlag_*` (inc/clcpp/clcpp.h:337-365). -/
def fDiskTransient : BitVec 32 := 0x01#32
def fNetworkTransient : BitVec 32 := 0x02#32
def fReplicateTransient : BitVec 32 := 0x04#32
def fExportTransient : BitVec 32 := 0x08#32
def fTransient : BitVec 32 := fDiskTransient ||| fNetworkTransient ||| fExportTransient
def fCustomLoad : BitVec 32 := 0x10#32
def fCustomSave : BitVec 32 := 0x20#32
def fPreSave : BitVec 32 := 0x40#32
def fPostLoad : BitVec 32 := 0x80#32
def fReplicate : BitVec 32 := 0x100#32

/-- `startswith(text, prefix)` (src/clReflectCore/FileUtils.cpp:119-122) on a possibly null text. -/
def starts (t : Option Bytes) (pre : Bytes) : Bool := pre.isPrefixOf (t.getD [])

/-- The bits one attribute adds in `GetFlagAttributeBits` (CppExport.cpp:797-827). -/
def attributeBits (k : K) (a : Obj) : BitVec 32 :=
  if a.hash = hashOf b!"disk_transient" then fDiskTransient
  else if a.hash = hashOf b!"network_transient" then fNetworkTransient
  else if a.hash = hashOf b!"replicate_transient" then fReplicateTransient
  else if a.hash = hashOf b!"export_transient" then fExportTransient
  else if a.hash = hashOf b!"transient" then fTransient
  else if a.hash = hashOf b!"pre_save" then fPreSave
  else if a.hash = hashOf b!"post_load" then fPostLoad
  else if a.hash = hashOf b!"replicate" then fReplicate
  else if starts a.text b!"load_" then fCustomLoad
  else if starts a.text b!"save_" then fCustomSave
  else if a.hash = hashOf b!"custom_flag" then
    if k = .intAttr then a.value else 0
  else 0

/-- `GetFlagAttributeBits` (CppExport.cpp:781-831). -/
def flagBits (st : St) (l : List Ref) : BitVec 32 :=
  l.foldl (fun bits r => bits ||| attributeBits r.1 (st.get r)) 0

/-- CppExport.cpp:1203-1206. -/
def addFlags (st : St) : St :=
  let f := fun (_ : Ref) (o : Obj) => { o with flags := flagBits st (o.kids .attributes) }
  (((st.map .enum f).map .field f).map .function f).map .cls f

/-- The custom bits and mask of `GetInheritedFlagAttributes` (CppExport.cpp:848-856). -/
def customBits (st : St) (l : List Ref) : BitVec 32 × BitVec 32 :=
  l.foldl (fun s r =>
    if (st.get r).hash = hashOf b!"custom_flag" ∧ r.1 = .intAttr then (s.1 ||| (st.get r).value, s.2)
    else if (st.get r).hash = hashOf b!"custom_flag_inherit" then (s.1, 0xFFFFFFFF#32)
    else s) (0, 0)

/-- `GetInheritedFlagAttributes` (CppExport.cpp:843-862) of a class whose flags are currently `flags`. -/
def inheritedBits (st : St) (flags : BitVec 32) (r : Ref) : BitVec 32 :=
  let c := customBits st ((st.get r).kids .attributes)
  (flags &&& fReplicate) ||| (c.1 &&& c.2)

/-- The loop over the base types (CppExport.cpp:869-873), `f` being the recursive call. -/
def inheritBases (f : Ref → (Ref → BitVec 32) → Option ((Ref → BitVec 32) × BitVec 32)) :
    List Ref → (Ref → BitVec 32) → BitVec 32 → Option ((Ref → BitVec 32) × BitVec 32)
  | [], flags, acc => some (flags, acc)
  | b :: bs, flags, acc =>
    match f b flags with
    | none => none
    | some (flags, inh) => inheritBases f bs flags (acc ||| inh)

/-- `InheritFlagAttributes(Type*)` (CppExport.cpp:864-883). Only flags change, so the state is a map of them.
The recursion is bounded by `fuel`; `none` is a recursion that has not ended. -/
def inherit (st : St) : Nat → Ref → (Ref → BitVec 32) → Option ((Ref → BitVec 32) × BitVec 32)
  | 0, _, _ => none
  | fuel + 1, r, flags =>
    match inheritBases (inherit st fuel) ((st.get r).kids .bases) flags 0 with
    | none => none
    | some (flags, inh) =>
      if r.1 = .cls then
        let inh := inh ||| inheritedBits st (flags r) r
        some (fun s => if s = r then flags r ||| inh else flags s, inh)
      else some (flags, inh)

/-- `InheritFlagAttributes(CppExport&)` (CppExport.cpp:886-890). -/
def inheritClasses (st : St) (fuel : Nat) : List Ref → (Ref → BitVec 32) → Option (Ref → BitVec 32)
  | [], flags => some flags
  | r :: rs, flags =>
    match inherit st fuel r flags with
    | none => none
    | some (flags, _) => inheritClasses st fuel rs flags

/-- CppExport.cpp:1209. -/
def inheritAll (fuel : Nat) (st : St) : Option St :=
  (inheritClasses st fuel (st.all .cls) (fun r => (st.get r).flags)).map fun flags =>
    { st with get := fun r => { st.get r with flags := flags r } }

/-! ### Primitive attributes, verification, isolation (CppExport.cpp:892-1090) -/

/-- `GatherAttributeRefPrimitives` and `AssignPrimitiveAttributes` (CppExport.cpp:892-921): the last of the types and
functions under a hash. -/
def assignTargets (env : Env) (st : St) : St :=
  st.map .primAttr fun _ o => { o with target :=
    match (st.typePrims ++ st.all .function).reverse.find? fun r => (st.get r).hash == env.hash o.target with
    | some r => .obj r
    | none => o.target }

/-- `VerifyPtr` (CppExport.cpp:923-938). -/
def verifyPtr (env : Env) (st : St) (p : Ptr) : Ptr :=
  if env.hash p ∈ st.names then .raw 0 else p

/-- `VerifyPrimitive` overloads (CppExport.cpp:940-1008). -/
def verifyObj (env : Env) (st : St) (k : K) (o : Obj) : Obj :=
  match k with
  | .container => o
  | .primAttr => { o with target := verifyPtr env st o.target }
  | .field => { o with parent := verifyPtr env st o.parent, type := verifyPtr env st o.type }
  | .instance => { o with parent := verifyPtr env st o.parent, args := o.args.map (verifyPtr env st) }
  | _ => { o with parent := verifyPtr env st o.parent }

/-- `VerifyPrimitives` (CppExport.cpp:1010-1032). A base type whose address looks like a name would become a null
entry that every walk over base types dereferences: undefined. -/
def verify (env : Env) (st : St) : Res St :=
  if ([K.type, .enum, .cls, .instance].flatMap st.all).any
      (fun r => ((st.get r).kids .bases).any fun b => decide (env.hash (.obj b) ∈ st.names)) then .ub
  else .ok { st with get := fun r => verifyObj env st r.1 (st.get r) }

/-- The loop of `RemoveInvalidFields` and `RemoveInvalidFunctions` (CppExport.cpp:1034-1072). -/
def removeLoop (bad : Ref → Bool) (a : CArray.Arr Ref) (i : Nat) : Res (CArray.Arr Ref) :=
  if i < a.size then
    match a.data[i]? with
    | none => .ub
    | some r =>
      if bad r then
        match h : CArray.stableRemove a i with
        | .ok b => removeLoop bad b i
        | .trap => .trap
        | .ub => .ub
      else removeLoop bad a (i + 1)
  else .ok a
termination_by a.size - i
decreasing_by
  · unfold CArray.stableRemove at h
    simp only [*, if_true] at h
    cases hs : CArray.shiftLoop a.data (a.size - 1 - i) i with
    | ok d => rw [hs] at h; simp at h; subst h; simp only; omega
    | trap => rw [hs] at h; simp at h
    | ub => rw [hs] at h; simp at h
  · omega

/-- A null type. -/
def noType (env : Env) (st : St) (f : Ref) : Bool := env.num (st.get f).type = 0

/-- The test of `RemoveInvalidFunctions` (CppExport.cpp:1053-1066). -/
def invalidFunction (env : Env) (st : St) (f : Ref) : Bool :=
  ((st.get f).kids .parameters).any (noType env st) ||
  match (st.get f).ret with
  | some p => noType env st p
  | none => false

/-- Remove the bad entries of one array of an object. -/
def isolateSlot (bad : Ref → Bool) (slot : Slot) (o : Obj) : Res Obj :=
  (removeLoop bad ⟨o.kids slot, (o.kids slot).length⟩ 0).bind fun a => .ok (o.setKids slot a.elems)

/-- `IsolateInvalidPrimitives` (CppExport.cpp:1074-1090), one class and one namespace. -/
def isolateClass (env : Env) (st : St) (r : Ref) : Res St :=
  (isolateSlot (noType env st) .fields (st.get r)).bind fun o =>
  (isolateSlot (invalidFunction env st) .methods o).bind fun o => .ok (st.set r o)

def isolateSpace (env : Env) (st : St) (r : Ref) : Res St :=
  (isolateSlot (invalidFunction env st) .functions (st.get r)).bind fun o => .ok (st.set r o)

/-! ### The whole export (CppExport.cpp:1093-1227) -/

/-- CppExport.cpp:1096-1163: copies and the scope hierarchy. -/
def exportScopes (env : Env) (db : DB.Database) : Res St :=
  (parents env hierarchy (copied db)).bind fun st => parentAttributes env st

/-- CppExport.cpp:1166-1206: links, sorting, containers, base types, constructors, flags. -/
def exportLinks (env : Env) (db : DB.Database) (st : St) : Res St :=
  (fieldKeys st (st.count .field)).bind fun fks =>
  let st := linkAll env st
  let st := st.map .function fun _ o => assignReturn st o
  let st := sortAll env (buildGlobals env st)
  (linkContainers env fks (List.range (st.count .container)) st).bind fun st =>
  (buildBases db st).bind fun st =>
  (forAll classConstructors (st.all .cls) st).bind fun st =>
  (forAll instanceConstructors (st.all .instance) st).bind fun st =>
  .ok (addFlags st)

/-- CppExport.cpp:1212-1224: attribute targets, verification, isolation. -/
def exportClean (env : Env) (st : St) : Res St :=
  (verify env (assignTargets env st)).bind fun st =>
  (forAll (isolateClass env) (st.all .cls) st).bind fun st =>
  forAll (isolateSpace env) (st.all .space) st

/-- `BuildCppExport` (CppExport.cpp:1093-1227). -/
def exportDB (env : Env) (fuel : Nat) (db : DB.Database) : Option (Res St) :=
  match (exportScopes env db).bind (exportLinks env db) with
  | .ok st => (inheritAll fuel st).map (exportClean env)
  | .trap => some .trap
  | .ub => some .ub

end Clr.Export
