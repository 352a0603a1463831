import Verif.Basic
/-
Model of `clutl::Module` (src/clReflectUtil/Module.cpp, inc/clutl/Module.h): shared libraries loaded at runtime.

The operating system is modelled as far as modules use it: opening a library takes a reference to it, closing gives one back,
and looking up a symbol needs a library that is referenced (`dlopen`, `dlclose`, `dlsym`; `LoadLibrary`, `FreeLibrary`,
`GetProcAddress`, Module.cpp:38-66).
-/
namespace Clr.Mod

/-- What is on the machine: the library of a file name, if there is one that can be loaded, and the address of a symbol
in a library. A handle is a number that is not 0. Calling a library's `GetReflectionDatabase` gives `database`. -/
structure Machine where
  library : Bytes → Option Nat
  library_ne : ∀ f h, library f = some h → h ≠ 0
  symbol : Nat → Bytes → Option Nat
  database : Nat → Nat

/-- `clutl::Module` (Module.h:58-66); null is 0. -/
structure Module where
  handle : Nat
  host : Nat
  db : Nat
deriving DecidableEq

/-- `Module::Module()` (Module.cpp:69-74). -/
def Module.new : Module := ⟨0, 0, 0⟩

/-- The number of references to each library. -/
abbrev Refs := Nat → Nat

/-- `LoadSharedLibrary` (Module.cpp:38-45). -/
def openLib (mc : Machine) (r : Refs) (f : Bytes) : Nat × Refs :=
  match mc.library f with
  | none => (0, r)
  | some h => (h, fun k => if k = h then r k + 1 else r k)

/-- `FreeSharedLibrary` (Module.cpp:58-65): a handle that is not open is undefined. -/
def closeLib (r : Refs) (h : Nat) : Res Refs :=
  if 0 < r h then .ok (fun k => if k = h then r k - 1 else r k) else .ub

/-- `GetSharedLibraryFunction` (Module.cpp:48-55). -/
def findSymbol (mc : Machine) (r : Refs) (h : Nat) (name : Bytes) : Res Nat :=
  if 0 < r h then .ok ((mc.symbol h name).getD 0) else .ub

/-- `Module::GetFunction` (Module.cpp:106-110). -/
def getFunction (mc : Machine) (r : Refs) (m : Module) (name : Bytes) : Res Nat :=
  if m.handle ≠ 0 then findSymbol mc r m.handle name else .trap

/-- `Module::Load` (Module.cpp:84-103). -/
def load (mc : Machine) (r : Refs) (m : Module) (host : Nat) (f : Bytes) : Res (Bool × Module × Refs) :=
  let o := openLib mc r f
  let m := { m with handle := o.1 }
  if m.handle = 0 then .ok (false, m, o.2)
  else if host = 0 then .trap
  else do
    let m := { m with host := host }
    let get ← getFunction mc o.2 m b!"GetReflectionDatabase"
    .ok (true, if get ≠ 0 then { m with db := mc.database m.handle } else m, o.2)

/-- `Module::~Module` (Module.cpp:77-81). -/
def destroy (r : Refs) (m : Module) : Res Refs := if m.handle ≠ 0 then closeLib r m.handle else .ok r

/-- The modules a program has, by number, and the references. -/
structure State where
  mods : Nat → Option Module
  refs : Refs

/-- What a program does with modules. -/
inductive Op where
  | create (i : Nat)
  | load (i host : Nat) (f : Bytes)
  | getFunction (i : Nat) (name : Bytes)
  | destroy (i : Nat)
  /-- The implicit copy constructor. -/
  | copy (i j : Nat)
deriving DecidableEq

def setMod (s : State) (i : Nat) (m : Option Module) : State := { s with mods := fun k => if k = i then m else s.mods k }

/-- Using a module that does not exist is undefined. -/
def step (mc : Machine) (s : State) : Op → Res State
  | .create i => if s.mods i = none then .ok (setMod s i (some .new)) else .ub
  | .load i host f =>
    match s.mods i with
    | none => .ub
    | some m => do
      let q ← load mc s.refs m host f
      .ok { setMod s i (some q.2.1) with refs := q.2.2 }
  | .getFunction i name =>
    match s.mods i with
    | none => .ub
    | some m => do
      let _ ← getFunction mc s.refs m name
      .ok s
  | .destroy i =>
    match s.mods i with
    | none => .ub
    | some m => do
      let r ← destroy s.refs m
      .ok { setMod s i none with refs := r }
  | .copy i j =>
    match s.mods i, s.mods j with
    | some m, none => .ok (setMod s j (some m))
    | _, _ => .ub

def run (mc : Machine) : List Op → State → Res State
  | [], s => .ok s
  | op :: ops, s => do
    let s ← step mc s op
    run mc ops s

/-- No modules, no references. -/
def start : State := ⟨fun _ => none, fun _ => 0⟩

end Clr.Mod
