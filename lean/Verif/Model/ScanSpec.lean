import Verif.Model.Scan

/-!
Specification of what is reflected.
-/
namespace Clr.Scan

/-- What an attribute says about reflection. -/
def word (name : Bytes) : Option Mark :=
  if name = b!"reflect" then some .reflect
  else if name = b!"reflect_part" then some .part
  else if name = b!"noreflect" then some .no
  else none

/-- What the reflection specs of a translation unit say about a symbol: the first that names it counts. -/
def specFor (texts : List Bytes) (name : Bytes) : Option Mark :=
  texts.findSome? fun t =>
    if t = b!"full-" ++ name then some .reflect
    else if t = b!"part-" ++ name then some .part
    else none

/-- How a declaration is marked: by its first attribute, or else by a spec. -/
def ownMark (texts : List Bytes) (i : Info) : Mark :=
  match i.attrs.head?.bind (fun a => word a.name) with
  | some m => m
  | none => (specFor texts i.name).getD .normal

/-- Forward declarations count as partially reflected, unless they are not to be reflected. -/
def mark (texts : List Bytes) (i : Info) : Mark :=
  if i.forward ∧ ownMark texts i ≠ .no then .part else ownMark texts i

/-- A declaration that is reflected, if the scopes around it are. -/
def Visible (texts : List Bytes) (outer : List Info) (i : Info) : Prop :=
  i.invalid = false ∧ mark texts i ≠ .no ∧ (mark texts i = .part ∨ ∃ s ∈ outer ++ [i], mark texts s = .reflect)

/-- A declaration whose contents are looked at: a namespace, or a class that is defined and supported. -/
def Scope (i : Info) : Prop :=
  i.kind = .namespace ∨ (i.kind = .cls ∧ i.skipped = false ∧ i.forward = false ∧ i.supported = true)

/-- Whether a declaration is reflected, given the scopes it is in, from the outermost to the innermost: it and all of the scopes
are visible. -/
def Reflected (texts : List Bytes) (outer : List Info) (i : Info) : Prop :=
  ∀ a x b, outer ++ [i] = a ++ x :: b → Visible texts a x ∧ (b ≠ [] → Scope x)

/-- A declaration among others, or in one of them: with the scopes it is in. -/
inductive Inside : Decls → List Info → Info → Prop where
  | here {i kids r} : Inside (.cons (.mk i kids) r) [] i
  | under {i kids r outer x} : Inside kids outer x → Inside (.cons (.mk i kids) r) (i :: outer) x
  | next {d r outer x} : Inside r outer x → Inside (.cons d r) outer x

/-- The name of the innermost scope; members of anonymous structures belong to what is around these. -/
def scopeName (outer : List Info) : Bytes :=
  ((outer.filter fun i => !(i.kind == .cls && i.anonymous)).getLast?.map Info.name).getD []

/-- What is in the database for a declaration that is reflected. -/
def entries (outer : List Info) (i : Info) : List Entry :=
  match i.kind with
  | .namespace => [⟨.namespace, i.name, scopeName outer⟩]
  | .cls =>
    if i.skipped = false ∧ i.anonymous = false ∧ (i.forward = true ∨ i.supported = true) then [⟨.cls, i.name, scopeName outer⟩] else []
  | .enum =>
    ⟨.enum, i.name, scopeName outer⟩ ::
      i.constants.map fun c => ⟨.constant, if scopeName outer = [] then c else scopeName outer ++ b!"::" ++ c, i.name⟩
  | .function | .method => if i.supported = true then [⟨.function, i.name, scopeName outer⟩] else []
  | .field => if i.supported = true then [⟨.field, i.unqualified, scopeName outer⟩] else []
  | .template => if i.supported = true then [⟨.template, i.name, scopeName outer⟩] else []
  | _ => []

/-- No attribute has by chance the hash of one of the three words. -/
def NoClash (i : Info) : Prop :=
  ∀ a ∈ i.attrs, ∀ w ∈ [b!"reflect", b!"reflect_part", b!"noreflect"], Hash.hashText a.name = Hash.hashText w → a.name = w

/-- What is assumed of a declaration; an anonymous structure is never a forward declaration. -/
def Fine (texts : List Bytes) (i : Info) : Prop :=
  NoClash i ∧ (i.forward = true → ownMark texts i ≠ .no) ∧ (i.forward = true → i.anonymous = false)

/-- A declaration of a translation unit, with the scopes it is in, of which the outermost (or itself) is of a kind that may be reflected
at global level. -/
def Declared (ds : Decls) (outer : List Info) (x : Info) : Prop :=
  Inside ds outer x ∧
    ∀ t, (outer ++ [x]).head? = some t → t.kind = .namespace ∨ t.kind = .cls ∨ t.kind = .function ∨ t.kind = .enum ∨ t.kind = .template

/-- A declaration that is not named by a reflection spec, or that says itself whether it is reflected. -/
def Recorded (texts : List Bytes) (i : Info) : Prop :=
  specFor texts i.name = none ∨ ∃ a as, i.attrs = a :: as ∧ word a.name ≠ none

end Clr.Scan
