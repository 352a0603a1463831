import Verif.Model.MapFile

/-!
How Microsoft's undecorator spells signatures: types with their keywords, `const` behind them, and the operator as a word of its own.
-/
namespace Clr.Map

open Clr.DB

/-- The word in front of a type. -/
inductive Kw where
  | none | struct | cls | enum
deriving DecidableEq, Repr

def Kw.print : Kw → Bytes
  | .none => [] | .struct => b!"struct " | .cls => b!"class " | .enum => b!"enum "

/-- Whether a type is said to be signed. -/
inductive Sign where
  | none | signed | unsigned
deriving DecidableEq, Repr

def Sign.print : Sign → Bytes
  | .none => [] | .signed => b!"signed " | .unsigned => b!"unsigned "

/-- Types: named, 64 bits wide, or a template of one argument. -/
inductive Ty where
  | named (kw : Kw) (sign : Sign) (word : Bytes)
  | int64 (sign : Sign)
  | templ (kw : Kw) (word : Bytes) (arg : Ty) (space : Bool)
deriving DecidableEq, Repr

/-- How the undecorator spells a type. -/
def Ty.print : Ty → Bytes
  | .named kw sign word => kw.print ++ (sign.print ++ word)
  | .int64 sign => sign.print ++ b!"__int64"
  | .templ kw word arg space => kw.print ++ (word ++ b!"<" ++ arg.print ++ (if space then b!" " else []) ++ b!">")

/-- How the database spells it. -/
def Ty.text : Ty → Bytes
  | .named _ sign word => sign.print ++ word
  | .int64 sign => sign.print ++ b!"long long"
  | .templ _ word arg _ => word ++ b!"<" ++ arg.text ++ b!">"

/-- A name that is not one of the words with a meaning. -/
def Word (w : Bytes) : Prop :=
  w ≠ [] ∧ (∀ c ∈ w, c ≠ 32 ∧ c ≠ 9 ∧ c ≠ 44 ∧ c ≠ 41 ∧ c ≠ 60 ∧ c ≠ 62) ∧ w.head? ≠ some 38 ∧ w.head? ≠ some 42 ∧
  w ∉ [b!"const", b!"__thiscall", b!"unsigned", b!"signed", b!"__int64", b!"__cdecl", b!"__stdcall", b!"__fastcall", b!"struct", b!"class",
    b!"enum"]

/-- All names in a type are. -/
def Ty.Words : Ty → Prop
  | .named _ _ w => Word w
  | .int64 _ => True
  | .templ _ w arg _ => Word w ∧ arg.Words

/-- A parameter. -/
structure Par where
  ty : Ty
  isConst : Bool := false
  op : Hash.Op := .value
deriving DecidableEq, Repr

/-- How it spells the operator. -/
def opText : Hash.Op → Bytes
  | .value => [] | .pointer => b!" *" | .reference => b!" &"

/-- How the undecorator spells a parameter. -/
def Par.print (p : Par) : Bytes :=
  p.ty.print ++ (if p.isConst then b!" const" else []) ++ opText p.op

/-- The parameter in the database. -/
def Par.param (p : Par) : Hash.Param := ⟨p.ty.text, p.op, p.isConst⟩

/-- Parameters separated by commas (and maybe a blank). -/
def printAll (sep : Bytes) : List Par → Bytes
  | [] => []
  | [p] => p.print
  | p :: ps => p.print ++ (44 :: sep) ++ printAll sep ps

/-- What is between the brackets; nothing may be spelled `void`. -/
def args (sep : Bytes) (void : Bool) (ps : List Par) : Bytes :=
  if ps = [] then (if void then b!"void" else []) else printAll sep ps

/-- A signature: what is before the name, the name, the parameters, what is behind. -/
def signature (pre name : Bytes) (sep void : Bool) (ps : List Par) (post : Bytes) : Bytes :=
  pre ++ name ++ b!"(" ++ args (if sep then [32] else []) void ps ++ b!")" ++ post

/-- The database knows a name. -/
def Knows (names : List Name) (t : Bytes) : Prop := hashOf t ≠ 0 ∧ findBy Name.hash (hashOf t) names = some ⟨hashOf t, t⟩

/-- A parameter of which the type is spelled as above, and known to the database. -/
def Known (names : List Name) (p : Par) : Prop :=
  p.ty.Words ∧ p.ty.text.length < 1024 ∧ Knows names p.ty.text ∧
  ¬ (p.op = .value ∧ p.ty.text = b!"void")

/-- Texts the database can be told of: hashes are not zero, and no two texts, of these and of the names, have the same. -/
def Clear (names : List Name) (T : List Bytes) : Prop :=
  ∀ t ∈ T, hashOf t ≠ 0 ∧ (∀ n ∈ names, n.hash = hashOf t → n.text = t) ∧ ∀ u ∈ T, hashOf u = hashOf t → u = t

/-- The operator as GCC's demangler spells it. -/
def gccOp : Hash.Op → Bytes
  | .value => [] | .pointer => b!"*" | .reference => b!"&"

/-- How GCC's demangler spells a parameter that is not const: no keywords, and no blank in front of the operator. -/
def Par.gcc (p : Par) : Bytes := p.ty.print ++ gccOp p.op

def gccAll : List Par → Bytes
  | [] => []
  | [p] => p.gcc
  | p :: ps => p.gcc ++ b!", " ++ gccAll ps

/-- Parameters for which that works: not const, and operators only behind words. -/
def Par.Gcc (p : Par) : Prop :=
  p.isConst = false ∧ ((∃ sign w, p.ty = .named .none sign w ∧ Word w) ∨ (p.ty.Words ∧ p.op = .value)) ∧ (p.ty.print ++ gccOp p.op).length < 512 ∧
  p.ty.text ++ gccOp p.op ≠ b!"void"

end Clr.Map
