import Verif.Model.Database
import Verif.Model.FileUtils

/-!
Function addresses from map files, src/clReflectExport/MapFileParser.cpp.

Simplifications:
* the demanglers (`abi::__cxa_demangle`, `UnDecorateSymbolName`) are parameters;
* loops carry a bound on their iterations, that is proved to be enough (`Verif/Props/MapFile.lean`);
* the character arrays of fixed size are byte lists, and writing behind their end is undefined behaviour; `ConsumeParameterToken` is
  modelled, with its array, in `Verif/Model/FileUtils.lean`, and `token` says what `C53_parameter_token_partial` proves of it;
* of `sscanf`, `%llX` reads hexadecimal digits only (no sign and no second `0x`), of which there are at most 16;
* the map files of macOS (`ParseMacGCCMapFile`) and the loop of `ParseMSVCMapFile` are in `Verif/Model/MapFiles.lean`; logging is left out.
-/
namespace Clr.Map

open Clr.DB Clr.FileUtils

/-- The database while a map file is read: `cldb::Database` and its `m_GetTypeFunctions`, by hash: the addresses of `GetTypeNameHash` and
of `GetType` (src/clReflectCore/Database.h:546-557). -/
structure St where
  db : Database := {}
  getTypes : List (UInt32 × UInt64 × UInt64) := []
deriving DecidableEq

/-! ### Parameters -/

/-- Where `ConsumeParameterToken` stops, MapFileParser.cpp:41. -/
def isStop (c : UInt8) : Bool := c == 32 || c == 44 || c == 41 || c == 60 || c == 62

/-- `ConsumeParameterToken`, MapFileParser.cpp:38-47, into an array of 1024 characters: the token and the rest. -/
def token (text : Bytes) : Res (Bytes × Bytes) :=
  if (text.takeWhile (fun c => !isStop c)).length < 1024 then
    .ok (text.takeWhile (fun c => !isStop c), text.dropWhile (fun c => !isStop c))
  else .ub

/-- `strcat` to `type_name`, an array of 1024 characters. -/
def cat (buf t : Bytes) : Res Bytes := if buf.length + t.length < 1024 then .ok (buf ++ t) else .ub

/-- What `MatchParameter` collects. -/
structure Parse where
  type : Bytes := []
  op : QualOp := .value
  isConst : Bool := false
  thisCall : Bool := false
deriving DecidableEq, Repr

/-- `skip_tokens`, MapFileParser.cpp:56-59. -/
def skipTokens : List Bytes := [b!"__cdecl", b!"__stdcall", b!"__fastcall", b!"struct", b!"class", b!"enum"]

/-- What is done with a token, MapFileParser.cpp:73-122. -/
def addToken (p : Parse) (tok : Bytes) : Res Parse :=
  if tok.head? = some 38 then .ok { p with op := .reference }
  else if tok.head? = some 42 then .ok { p with op := .pointer }
  else if tok = b!"const" then .ok { p with isConst := true }
  else if tok = b!"__thiscall" then .ok { p with thisCall := true }
  else if tok = b!"unsigned" ∨ tok = b!"signed" then (cat p.type (tok ++ b!" ")).map fun t => { p with type := t }
  else if tok = b!"__int64" then (cat p.type b!"long long").map fun t => { p with type := t }
  else if tok ∈ skipTokens then .ok p
  else (cat p.type tok).map fun t => { p with type := t }

/-- Angle brackets are part of the type's name, MapFileParser.cpp:126-132. -/
def addAngle (p : Parse) (text : Bytes) : Res (Parse × Bytes) :=
  match text with
  | c :: r => if c = 60 ∨ c = 62 then (cat p.type [c]).map fun t => ({ p with type := t }, r) else .ok (p, text)
  | [] => .ok (p, text)

/-- The loop of `MatchParameter`, MapFileParser.cpp:68-139; `e` is the length of the text from `end` on.  `none`: still running. -/
def matchLoop (e : Nat) : Nat → Bytes → Parse → Res (Option (Parse × Bytes))
  | 0, _, _ => .ok none
  | fuel + 1, text, p =>
    if e < text.length then do
      let (tok, t1) ← token text
      let p1 ← addToken p tok
      let (p2, t2) ← addAngle p1 (skipWhitespace t1)
      match t2 with
      | c :: r => if c = 44 ∨ c = 41 then .ok (some (p2, r)) else matchLoop e fuel t2 p2
      | [] => matchLoop e fuel t2 p2
    else .ok (some (p, text))

/-- The name that `GetName` returns for the type, MapFileParser.cpp:141; then what of a parameter enters the unique id. -/
def toParam (names : List Name) (p : Parse) : Res (Hash.Param × List Name) := do
  let (n, names) ← getName names (some p.type)
  .ok (⟨n.text, match p.op with | .value => .value | .pointer => .pointer | .reference => .reference, p.isConst⟩, names)

/-- `MatchParameter`, MapFileParser.cpp:49-143: the parameter, whether `__thiscall` was met, the rest of the text, the names. -/
def matchParameter (e : Nat) (names : List Name) (text : Bytes) : Res (Hash.Param × Bool × Bytes × List Name) := do
  let r ← matchLoop e (text.length + 1) text {}
  let (p, rest) := r.getD ({}, [])
  let (q, names) ← toParam names p
  .ok (q, p.thisCall, rest, names)

/-- `IsVoidParameter`, MapFileParser.cpp:145-148. -/
def isVoid (p : Hash.Param) : Bool := p.op == .value && p.typeText == b!"void"

/-- The loop over the parameters, MapFileParser.cpp:228-234. -/
def paramLoop (e : Nat) : Nat → List Name → Bytes → Res (Option (List Hash.Param × List Name))
  | 0, _, _ => .ok none
  | fuel + 1, names, text =>
    if e < text.length then do
      let (q, _, rest, names) ← matchParameter e names text
      let r ← paramLoop e fuel names rest
      .ok (r.map fun (ps, names) => ((if isVoid q then ps else q :: ps), names))
    else .ok (some ([], names))

/-- The functions of a name, in order: the first with the id is given the address, MapFileParser.cpp:240-253. -/
def setAddress (hash id : UInt32) (address : UInt64) : List Function → Option (List Function)
  | [] => none
  | f :: fs =>
    if f.name.hash = hash ∧ f.uniqueId = id then some ({ f with address := address } :: fs)
    else (setAddress hash id address fs).map (f :: ·)

/-- `std::string::rfind(pat, pos)`: the last occurrence that begins at `pos` or before. -/
def rfind (s pat : Bytes) : Nat → Option Nat
  | 0 => if pat.isPrefixOf s then some 0 else none
  | i + 1 => if pat.isPrefixOf (s.drop (i + 1)) then some (i + 1) else rfind s pat i

/-- The `this` parameter, MapFileParser.cpp:201-225; `none` if the name has no scope. -/
def thisParam (names : List Name) (name : Bytes) (isConst : Bool) : Res (Option (Hash.Param × List Name)) :=
  match rfind name b!"::" name.length with
  | none => .ok none
  | some r =>
    if r < 1024 then do
      let (n, names) ← getName names (some (name.take r))
      .ok (some (⟨n.text, .pointer, isConst⟩, names))
    else .ub

/-- The parameters and the address, MapFileParser.cpp:227-255, once the brackets are found at `l` and `r`. -/
def addAddress (db : Database) (name sig : Bytes) (l r : Nat) (address : UInt64) (first : List Hash.Param) (names : List Name) :
    Res (Bool × Database) := do
  let ps ← paramLoop (sig.length - r) (sig.length + 1) names (sig.drop (l + 1))
  let (ps, names) := ps.getD ([], names)
  match setAddress (hashOf name) ⟨Hash.uniqueId (first ++ ps)⟩ address db.functions with
  | some fs => .ok (true, { db with names := names, functions := fs })
  | none => .ok (false, { db with names := names })

/-- `AddFunctionAddress`, MapFileParser.cpp:175-256. -/
def addFunctionAddress (db : Database) (name sig : Bytes) (address : UInt64) (thisCall isConst : Bool) : Res (Bool × Database) :=
  if address = 0 then .ok (false, db)
  else
    match find sig name 0 with
    | none => .ok (false, db)
    | some f =>
      match find sig b!"(" f with
      | none => .ok (false, db)
      | some l =>
        match find sig b!")" l with
        | none => .ok (false, db)
        | some r =>
          if thisCall then do
            match ← thisParam db.names name isConst with
            | none => .ok (false, db)
            | some (p, names) => addAddress db name sig l r address [p] names
          else addAddress db name sig l r address [] db.names

/-! ### Generated functions -/

/-- `SkipTypePrefix`, MapFileParser.cpp:258-267, for the text from the position on (`sizeof("struct")` is the length with the blank). -/
def skipTypePrefix (text : Bytes) : Bytes :=
  let text := if text.take 7 = b!"struct " then text.drop 7 else text
  let text := if text.take 6 = b!"class " then text.drop 6 else text
  if text.take 5 = b!"enum " then text.drop 5 else text

/-- `m_GetTypeFunctions[hash]` and an assignment to one of its addresses. -/
def assignGetType (hash : UInt32) (address : UInt64) (isGetType : Bool) :
    List (UInt32 × UInt64 × UInt64) → List (UInt32 × UInt64 × UInt64)
  | [] => [(hash, if isGetType then (0, address) else (address, 0))]
  | e :: es =>
    if hash < e.1 then (hash, if isGetType then (0, address) else (address, 0)) :: e :: es
    else if hash = e.1 then (hash, if isGetType then (e.2.1, address) else (address, e.2.2)) :: es
    else e :: assignGetType hash address isGetType es

/-- `AddGetTypeAddress`, MapFileParser.cpp:269-309. -/
def addGetTypeAddress (s : St) (name : Bytes) (address : UInt64) (isGetType : Bool) : Res St :=
  if address = 0 then .ok s
  else
    match find name b!"<" 0 with
    | none => .ok s
    | some pos =>
      let t := skipTypePrefix (name.drop (pos + 1))
      match find t b!">" 0 with
      | none => .ok s
      | some n => do
        let (typeName, names) ← getName s.db.names (some (t.take n))
        let s := { s with db := { s.db with names := names } }
        if typeName.hash = 0 then .ok s
        else .ok { s with getTypes := assignGetType typeName.hash address isGetType s.getTypes }

/-- From the star back over stars and blanks, MapFileParser.cpp:337-338: the last position that is neither; undefined if there is none. -/
def backOver (sig : Bytes) : Nat → Res Nat
  | 0 => if sig[0]? = some 32 ∨ sig[0]? = some 42 then .ub else .ok 0
  | i + 1 => if sig[i + 1]? = some 32 ∨ sig[i + 1]? = some 42 then backOver sig i else .ok (i + 1)

/-- The primitives of a constructor or destructor, MapFileParser.cpp:340-371. -/
def addImpl (db : Database) (typeText : Bytes) (address : UInt64) (isConstructor : Bool) : Res Database := do
  let (type, names) ← getName db.names (some typeText)
  let (this, names) ← getName names (some b!"this")
  let (fname, names) ← getName names (some (typeText ++ b!"::" ++ (if isConstructor then b!"ConstructObject" else b!"DestructObject")))
  let id : UInt32 := ⟨Hash.uniqueId [⟨type.text, .pointer, false⟩]⟩
  let fields ← DB.add (fun x : Field => x.name.hash)
    { name := this, parent := fname, type := type, qualifier := ⟨.pointer, false⟩, offset := 0, parentUniqueId := id } db.fields
  let functions ← DB.add (fun x : Function => x.name.hash) { name := fname, parent := type, uniqueId := id, address := address } db.functions
  .ok { db with names := names, fields := fields, functions := functions }

/-- `AddClassImplFunction`, MapFileParser.cpp:311-372 (`AddConstructFunction`, `AddDestructFunction`). -/
def addClassImpl (db : Database) (sig : Bytes) (address : UInt64) (isConstructor : Bool) : Res Database :=
  if address = 0 then .ok db
  else
    match find sig b!"(" 0 with
    | none => .ok db
    | some l =>
      let pos := sig.length - (skipTypePrefix (sig.drop (l + 1))).length
      match find sig b!"*" pos with
      | none => .ok db
      | some e => do
        let e ← backOver sig e
        -- `substr(pos, end_pos - pos + 1)`: if the count is negative it wraps, and the rest of the text is taken
        addImpl db (if e + 1 < pos then sig.drop pos else (sig.drop pos).take (e + 1 - pos)) address isConstructor

/-! ### The name in a signature -/

/-- `ReplaceAll`, MapFileParser.cpp:570-581: the loop is that of `StringReplace`. -/
def replaceAll (s pat w : Bytes) : Bytes := (stringReplace (s.length + 1) s pat w).getD s

/-- `FindRandomString`, MapFileParser.cpp:550-561; `rand` gives the digits. -/
def findRandom (sig : Bytes) (rand : Nat → Nat) : Nat → Nat → Bytes → Bytes
  | 0, _, res => res
  | fuel + 1, k, res =>
    if (find sig res 0).isSome then findRandom sig rand fuel (k + 1) (res ++ [UInt8.ofNat (48 + rand k % 10)]) else res

/-- The signature and the stack of replacements: what was replaced, and by what, the last one first. -/
abbrev Repl := Bytes × List (Bytes × Bytes)

/-- `ReplaceOccurence`, MapFileParser.cpp:584-591. -/
def replaceOccurence (base original : Bytes) (s : Repl) : Repl :=
  let w := base ++ FileUtils.itoa (UInt32.ofNat s.2.length)
  (replaceAll s.1 original w, (original, w) :: s.2)

/-- The loop of `ReplacePattern`, MapFileParser.cpp:595-615; `pos` is where `rfind` begins (`none` is `npos`). -/
def replacePattern (base left right : Bytes) : Nat → Option Nat → Repl → Repl
  | 0, _, s => s
  | fuel + 1, pos, s =>
    match rfind s.1 left (pos.getD s.1.length) with
    | none => s
    | some f =>
      match find s.1 right (f + left.length) with
      | none => s
      | some c =>
        replacePattern base left right fuel (if f = 0 then none else some (f - 1))
          (replaceOccurence base ((s.1.drop f).take (c + right.length - f)) s)

/-- `RestoreReplacedString`, MapFileParser.cpp:618-628. -/
def restore : List (Bytes × Bytes) → Bytes → Bytes
  | [], s => s
  | (original, w) :: r, s => restore r (replaceAll s w original)

/-- Behind the blank, or behind the one before if it is that of a conversion operator, MapFileParser.cpp:664-681. -/
def nameStart (s : Bytes) (blank : Option Nat) : Nat :=
  let start := match blank with | none => 0 | some i => i + 1
  if 9 ≤ start ∧ (s.drop (start - 9)).take 9 = b!"operator " then start - 9 else start

/-- The place of the name once everything is replaced, MapFileParser.cpp:659-685. -/
def cutName (s : Bytes) : Bytes :=
  let paren := (find s b!"(" 0).getD (s.length + 1)
  let start := nameStart s (rfind s b!" " paren)
  (s.drop start).take (paren - start)

/-- `ParseFunctionName`, MapFileParser.cpp:631-686, with a bound on the rounds of each loop. -/
def parseWith (fuel : Nat) (rand : Nat → Nat) (sig : Bytes) : Bytes :=
  let base := findRandom sig rand fuel 0 b!"r?An_D"
  let s := replaceOccurence base b!"(anonymous namespace)" (sig, [])
  let s := replacePattern base b!"&(" b!"))" fuel none s
  let s := replacePattern base b!"(*)(" b!")" fuel none s
  let s := replacePattern base b!"<" b!">" fuel none s
  restore s.2 (cutName s.1)

/-- `ParseFunctionName`: these rounds are enough, `C63_parser_ends`. -/
def parseFunctionName (rand : Nat → Nat) (sig : Bytes) : Bytes := parseWith (sig.length + 1) rand sig

/-! ### Files -/

/-- `rfind("const") == size() - 5`, MapFileParser.cpp:719-720 (for texts of four characters both are `npos`). -/
def endsConst (sig : Bytes) : Bool := sig.length == 4 || (5 ≤ sig.length && rfind sig b!"const" sig.length == some (sig.length - 5))

/-- `ProcessFunctionItem`, MapFileParser.cpp:688-748. -/
def processItem (rand : Nat → Nat) (s : St) (sig : Bytes) (address : UInt64) : Res St :=
  let name := parseFunctionName rand sig
  if name = [] then .ok s
  else if startswith name b!"clcppConstructObject" then (addClassImpl s.db sig address true).map fun db => { s with db := db }
  else if startswith name b!"clcppDestructObject" then (addClassImpl s.db sig address false).map fun db => { s with db := db }
  else if startswith name b!"clcpp::GetType<" then addGetTypeAddress s name address true
  else if startswith name b!"clcpp::GetTypeNameHash<" then addGetTypeAddress s name address false
  else
    match getFirst (fun f : Function => f.name.hash) name s.db.functions with
    | none => .ok s
    | some _ => do
      let (found, db) ← addFunctionAddress s.db name sig address true (endsConst sig)
      if found then .ok { s with db := db }
      else do
        let (_, db) ← addFunctionAddress db name sig address false (endsConst sig)
        .ok { s with db := db }

/-- White space of `sscanf`. -/
def isSpace (c : UInt8) : Bool := c == 32 || (9 ≤ c && c ≤ 13)

/-- Hexadecimal digits. -/
def isHex (c : UInt8) : Bool := (48 ≤ c && c ≤ 57) || (65 ≤ c && c ≤ 70) || (97 ≤ c && c ≤ 102)

/-- A blank and `0x%llX` in a format. -/
def scanAddress (text : Bytes) : Option (UInt64 × Bytes) :=
  match text.dropWhile isSpace with
  | 48 :: 120 :: t =>
    let d := (t.dropWhile isSpace).takeWhile isHex
    if d = [] then none else some (hextoi64 d, (t.dropWhile isSpace).dropWhile isHex)
  | _ => none

/-- ` %s` in a format, into an array of 1024 characters. -/
def scanWord (text : Bytes) : Res (Option Bytes) :=
  let w := (text.dropWhile isSpace).takeWhile (fun c => !isSpace c)
  if w = [] then .ok none else if w.length < 1024 then .ok (some w) else .ub

/-- `ParseLinuxGCCMapFile`'s state: `text_region`, the base address, the database. -/
structure Reader where
  text : Bool := false
  base : UInt64 := 0
  st : St := {}

/-- A line of the file, MapFileParser.cpp:825-855. -/
def linuxLine (demangle : Bytes → Option Bytes) (rand : Nat → Nat) (r : Reader) (line : Bytes) : Res Reader :=
  if r.text then
    match scanAddress line with
    | none => .ok r
    | some (address, rest) => do
      match ← scanWord rest with
      | none => .ok r
      | some w =>
        if w.head? = some 95 then
          match demangle w with
          | none => .ok r
          | some sig =>
            if (find sig b!" for " 0).isSome then .ok r
            else (processItem rand r.st sig address).map fun st => { r with st := st }
        else .ok r
  else if startswith line b!".text" then
    match scanAddress (line.drop 5) with
    | none => .ok r
    | some (address, rest) =>
      match scanAddress rest with
      | none => .ok r
      | some _ => .ok { r with base := address, text := true }
  else .ok r

/-- `ParseLinuxGCCMapFile`, MapFileParser.cpp:817-857: the lines after the first; a line ends, for all that looks at it, at a zero. -/
def linuxLines (demangle : Bytes → Option Bytes) (rand : Nat → Nat) : Reader → List Bytes → Res Reader
  | r, [] => .ok r
  | r, l :: ls => do
    let r ← linuxLine demangle rand r (l.takeWhile (· != 0))
    linuxLines demangle rand r ls

/-- `ParseGCCMapFile`, MapFileParser.cpp:859-882, for the contents of a file of a Linux linker; an empty file has no first line, and
`startswith` is given a null pointer. -/
def parseLinux (demangle : Bytes → Option Bytes) (rand : Nat → Nat) (file : Bytes) (s : St) : Res Reader :=
  match allLines (file.length + 1) file with
  | [] => .ub
  | l :: ls =>
    if startswith (l.takeWhile (· != 0)) b!"Archive member included because of file (symbol)" then linuxLines demangle rand { st := s } ls
    else .ok { st := s }

/-! ### Microsoft's map files -/

/-- `ConsumeToken(line, ' ', token, 1024)`, src/clReflectCore/FileUtils.cpp:139-148. -/
def blankToken (text : Bytes) : Res (Bytes × Bytes) :=
  if (text.takeWhile (· != 32)).length < 1024 then .ok (text.takeWhile (· != 32), text.dropWhile (· != 32)) else .ub

/-- `ParseAddressField`, MapFileParser.cpp:427-444. -/
def parseAddressField (line : Bytes) : Res UInt64 := do
  let (tok, rest) ← blankToken (skipWhitespace line)
  if (skipWhitespace rest).head? = some 102 then .ok (UInt64.ofNat (hextoi tok).toNat) else .ok 0

/-- What `UndecorateFunctionSignature` does with the text, MapFileParser.cpp:417-424. -/
def withoutPrefixes (sig : Bytes) : Bytes := replaceAll (replaceAll sig b!"struct " []) b!"class " []

/-- A line of the public symbols, MapFileParser.cpp:462-511; `undName` and `undSig` are `UnDecorateSymbolName` with the two sets of flags.
`none`: the function returned. -/
def msvcLine (undName undSig : Bytes → Bytes) (s : St) (line : Bytes) : Res (Option St) := do
  let (_, line) ← blankToken (skipWhitespace line)
  let (tok, line) ← blankToken (skipWhitespace line)
  let name := undName tok
  let sig := withoutPrefixes (undSig tok)
  if startswith name b!"clcppConstructObject" then do
    let address ← parseAddressField line
    let db ← addClassImpl s.db sig address true
    .ok (some { s with db := db })
  else if startswith name b!"clcppDestructObject" then do
    let address ← parseAddressField line
    let db ← addClassImpl s.db sig address false
    .ok (some { s with db := db })
  else if startswith name b!"clcpp::GetType<" then do
    let address ← parseAddressField line
    let s ← addGetTypeAddress s name address true
    .ok (some s)
  else if startswith name b!"clcpp::GetTypeNameHash<" then do
    let address ← parseAddressField line
    let s ← addGetTypeAddress s name address false
    .ok (some s)
  else
    match getFirst (fun f : Function => f.name.hash) name s.db.functions with
    | none => .ok (some s)
    | some _ => do
      let address ← parseAddressField line
      match find sig name 0 with
      | none => .ok none
      | some f => do
        let (q, thisCall, _, names) ← matchParameter (sig.length - f) s.db.names sig
        let (_, db) ← addFunctionAddress { s.db with names := names } name sig address thisCall q.isConst
        .ok (some { s with db := db })

end Clr.Map
