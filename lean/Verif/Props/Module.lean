import Verif.Model.Module

/-!
C78: a module's library is loaded as long as the module, and no longer.
-/
namespace Clr.Mod

/-! ### Specification -/

/-- The history of a program that uses each module as it is meant to be: modules are created before they are used, no host is
null, functions are looked up in modules whose library was loaded, nothing is loaded twice, and modules are not copied.
`alive` says which modules there are, and the file of their library if it was loaded. -/
inductive Proper (mc : Machine) : (Nat → Option (Option Bytes)) → List Op → Prop
  | nil {alive} : Proper mc alive []
  | create {alive i ops} (h : alive i = none) (hr : Proper mc (fun k => if k = i then some none else alive k) ops) :
      Proper mc alive (.create i :: ops)
  | load {alive i host f ops} (h : alive i = some none) (hh : host ≠ 0)
      (hr : Proper mc (fun k => if k = i then some (if (mc.library f).isSome then some f else none) else alive k) ops) :
      Proper mc alive (.load i host f :: ops)
  | getFunction {alive i name f ops} (h : alive i = some (some f)) (hr : Proper mc alive ops) :
      Proper mc alive (.getFunction i name :: ops)
  | destroy {alive i x ops} (h : alive i = some x) (hr : Proper mc (fun k => if k = i then none else alive k) ops) :
      Proper mc alive (.destroy i :: ops)

/-- Which modules there are after a history, with the files of their libraries. -/
def aliveAfter (mc : Machine) : (Nat → Option (Option Bytes)) → List Op → (Nat → Option (Option Bytes))
  | alive, [] => alive
  | alive, .create i :: ops => aliveAfter mc (fun k => if k = i then some none else alive k) ops
  | alive, .load i _ f :: ops =>
    aliveAfter mc (fun k => if k = i then some (if (mc.library f).isSome then some f else none) else alive k) ops
  | alive, .destroy i :: ops => aliveAfter mc (fun k => if k = i then none else alive k) ops
  | alive, _ :: ops => aliveAfter mc alive ops

/-- The modules a history names are below a number. -/
def below (n : Nat) : Op → Bool
  | .create i => i < n
  | .load i _ _ => i < n
  | .getFunction i _ => i < n
  | .destroy i => i < n
  | .copy i j => i < n && j < n

/-- How many of the modules below a number have a library of which they hold a reference. -/
def users (mc : Machine) (alive : Nat → Option (Option Bytes)) (h : Nat) : Nat → Nat
  | 0 => 0
  | n + 1 =>
    users mc alive h n +
      match alive n with
      | some (some f) => if mc.library f = some h then 1 else 0
      | _ => 0

/-- What a module holds whose library is the one of a file: the library's handle, and the library's database if it has the
function that gives it. -/
def IsFor (mc : Machine) (m : Module) : Option Bytes → Prop
  | none => m.handle = 0 ∧ m.db = 0
  | some f => mc.library f = some m.handle ∧
      m.db = if (mc.symbol m.handle b!"GetReflectionDatabase").getD 0 ≠ 0 then mc.database m.handle else 0

/-! ### Lemmas -/

/-- The state agrees with what is alive. -/
structure Agrees (mc : Machine) (n : Nat) (alive : Nat → Option (Option Bytes)) (s : State) : Prop where
  mods : ∀ i, match alive i with
    | none => s.mods i = none
    | some x => ∃ m, s.mods i = some m ∧ IsFor mc m x
  refs : ∀ h, s.refs h = users mc alive h n

theorem users_set (mc : Machine) (alive : Nat → Option (Option Bytes)) (h i : Nat) (x : Option (Option Bytes)) : ∀ n, i < n →
    users mc (fun k => if k = i then x else alive k) h n +
        (match alive i with | some (some f) => if mc.library f = some h then 1 else 0 | _ => 0) =
      users mc alive h n + (match x with | some (some f) => if mc.library f = some h then 1 else 0 | _ => 0) := by
  have below : ∀ n, n ≤ i → users mc (fun k => if k = i then x else alive k) h n = users mc alive h n := by
    intro n
    induction n with
    | zero => intro _; rfl
    | succ n ih =>
      intro hn
      simp only [users]
      rw [ih (by omega), if_neg (by omega)]
  intro n
  induction n with
  | zero => intro hn; omega
  | succ n ih =>
    intro hn
    simp only [users]
    by_cases he : n = i
    · subst he
      rw [below n (Nat.le_refl _), if_pos rfl]
      omega
    · rw [if_neg he]
      have := ih (by omega)
      omega

theorem users_pos (mc : Machine) (alive : Nat → Option (Option Bytes)) (h i : Nat) (f : Bytes) (ha : alive i = some (some f))
    (hf : mc.library f = some h) : ∀ n, i < n → 0 < users mc alive h n := by
  intro n
  induction n with
  | zero => intro hn; omega
  | succ n ih =>
    intro hn
    simp only [users]
    by_cases he : n = i
    · subst he
      rw [ha]
      simp [hf]
    · have := ih (by omega)
      omega

theorem agrees_start (mc : Machine) (n : Nat) : Agrees mc n (fun _ => none) start := by
  refine ⟨fun i => rfl, fun h => ?_⟩
  induction n with
  | zero => rfl
  | succ n ih => simpa [users] using ih

theorem agrees_run (mc : Machine) (n : Nat) : ∀ (ops : List Op) (alive : Nat → Option (Option Bytes)) (s : State),
    (∀ op ∈ ops, below n op = true) → Proper mc alive ops → Agrees mc n alive s →
    ∃ s', run mc ops s = .ok s' ∧ Agrees mc n (aliveAfter mc alive ops) s' := by
  intro ops
  induction ops with
  | nil => intro alive s _ _ ha; exact ⟨s, rfl, ha⟩
  | cons op ops ih =>
    intro alive s hn hp ha
    have hn' : ∀ op ∈ ops, below n op = true := fun o ho => hn o (by simp [ho])
    have hb := hn op (by simp)
    cases hp with
    | @create _ i _ h hr =>
      have hi : i < n := by simpa [below] using hb
      have hm := ha.mods i
      rw [h] at hm
      simp only at hm
      have ha' : Agrees mc n (fun k => if k = i then some none else alive k) (setMod s i (some .new)) := by
        refine ⟨fun k => ?_, fun l => ?_⟩
        · by_cases hk : k = i
          · subst hk
            simp only [if_true]
            exact ⟨.new, by simp [setMod], rfl, rfl⟩
          · have := ha.mods k
            simp only [if_neg hk, setMod]
            exact this
        · have := users_set mc alive l i (some none) n hi
          rw [h] at this
          have hr := ha.refs l
          show s.refs l = _
          simp only at this
          omega
      obtain ⟨s', h1, h2⟩ := ih _ _ hn' hr ha'
      refine ⟨s', ?_, h2⟩
      rw [run, step, if_pos hm]
      exact h1
    | @load _ i host f _ h hh hr =>
      have hi : i < n := by simpa [below] using hb
      have hm := ha.mods i
      rw [h] at hm
      obtain ⟨m, hm, hz1, hz2⟩ := hm
      have hu := fun l => users_set mc alive l i (some (if (mc.library f).isSome then some f else none)) n hi
      cases hl : mc.library f with
      | none =>
        rw [hl] at hr
        simp only [Option.isSome_none, Bool.false_eq_true, if_false] at hr
        have ha' : Agrees mc n (fun k => if k = i then some none else alive k) (setMod s i (some { m with handle := 0 })) := by
          refine ⟨fun k => ?_, fun l => ?_⟩
          · by_cases hk : k = i
            · subst hk
              simp only [if_true]
              exact ⟨{ m with handle := 0 }, by simp [setMod], rfl, hz2⟩
            · have := ha.mods k
              simp only [if_neg hk, setMod]
              exact this
          · have := users_set mc alive l i (some none) n hi
            rw [h] at this
            have hr := ha.refs l
            show s.refs l = _
            simp only at this
            omega
        obtain ⟨s', h1, h2⟩ := ih _ _ hn' hr ha'
        refine ⟨s', ?_, ?_⟩
        · rw [run, step, hm]
          simp only [load, openLib, hl, if_true, Res.bind_ok]
          exact h1
        · simpa [aliveAfter, hl] using h2
      | some lib =>
        rw [hl] at hr
        simp only [Option.isSome_some, if_true] at hr
        have hne := mc.library_ne f lib hl
        let db' := if (mc.symbol lib b!"GetReflectionDatabase").getD 0 ≠ 0 then mc.database lib else 0
        have ha' : Agrees mc n (fun k => if k = i then some (some f) else alive k)
            { setMod s i (some ⟨lib, host, db'⟩) with refs := fun k => if k = lib then s.refs k + 1 else s.refs k } := by
          refine ⟨fun k => ?_, fun l => ?_⟩
          · by_cases hk : k = i
            · subst hk
              simp only [if_true]
              exact ⟨⟨lib, host, db'⟩, by simp [setMod], hl, rfl⟩
            · have := ha.mods k
              simp only [if_neg hk, setMod]
              exact this
          · have := users_set mc alive l i (some (some f)) n hi
            rw [h] at this
            have hr := ha.refs l
            show (if l = lib then s.refs l + 1 else s.refs l) = _
            simp only [hl, Option.some.injEq] at this
            by_cases hk : l = lib
            · rw [if_pos hk]
              rw [if_pos hk.symm] at this
              omega
            · rw [if_neg hk]
              rw [if_neg (fun h => hk h.symm)] at this
              omega
        obtain ⟨s', h1, h2⟩ := ih _ _ hn' hr ha'
        refine ⟨s', ?_, ?_⟩
        · rw [run, step, hm]
          have hload : load mc s.refs m host f = .ok (true, ⟨lib, host, db'⟩, fun k => if k = lib then s.refs k + 1 else s.refs k) := by
            unfold load
            simp only [openLib, hl, if_neg hne, if_neg hh, getFunction, findSymbol]
            rw [if_pos hne]
            simp only [if_true, Nat.zero_lt_succ, Res.bind_ok, db', hz2]
            by_cases hs : (mc.symbol lib b!"GetReflectionDatabase").getD 0 = 0
            · simp only [hs, ne_eq, not_true_eq_false, if_false]
            · simp [hs]
          simp only [hload, Res.bind_ok]
          exact h1
        · simpa [aliveAfter, hl] using h2
    | @getFunction _ i name f _ h hr =>
      have hi : i < n := by simpa [below] using hb
      have hm := ha.mods i
      rw [h] at hm
      obtain ⟨m, hm, hf, -⟩ := hm
      obtain ⟨s', h1, h2⟩ := ih _ _ hn' hr ha
      refine ⟨s', ?_, h2⟩
      rw [run, step, hm]
      have hpos := users_pos mc alive m.handle i f h hf n hi
      have hne := mc.library_ne f _ hf
      simp only [getFunction, if_pos hne, findSymbol]
      rw [if_pos (by rw [ha.refs]; exact hpos)]
      exact h1
    | @destroy _ i x _ h hr =>
      have hi : i < n := by simpa [below] using hb
      have hm := ha.mods i
      rw [h] at hm
      obtain ⟨m, hm, hf⟩ := hm
      cases x with
      | none =>
        have ha' : Agrees mc n (fun k => if k = i then none else alive k) { setMod s i none with refs := s.refs } := by
          refine ⟨fun k => ?_, fun l => ?_⟩
          · by_cases hk : k = i
            · subst hk
              simp [setMod]
            · have := ha.mods k
              simp only [if_neg hk, setMod]
              exact this
          · have := users_set mc alive l i none n hi
            rw [h] at this
            have hr := ha.refs l
            show s.refs l = _
            simp only at this
            omega
        obtain ⟨s', h1, h2⟩ := ih _ _ hn' hr ha'
        refine ⟨s', ?_, h2⟩
        rw [run, step, hm]
        simp only [destroy, hf.1, ne_eq, not_true_eq_false, if_false, Res.bind_ok]
        exact h1
      | some f =>
        have hpos := users_pos mc alive m.handle i f h hf.1 n hi
        have hne := mc.library_ne f _ hf.1
        have ha' : Agrees mc n (fun k => if k = i then none else alive k)
            { setMod s i none with refs := fun k => if k = m.handle then s.refs k - 1 else s.refs k } := by
          refine ⟨fun k => ?_, fun l => ?_⟩
          · by_cases hk : k = i
            · subst hk
              simp [setMod]
            · have := ha.mods k
              simp only [if_neg hk, setMod]
              exact this
          · have := users_set mc alive l i none n hi
            rw [h] at this
            have hr := ha.refs l
            show (if l = m.handle then s.refs l - 1 else s.refs l) = _
            simp only [hf.1, Option.some.injEq] at this
            by_cases hk : l = m.handle
            · rw [if_pos hk]
              rw [if_pos hk.symm] at this
              omega
            · rw [if_neg hk]
              rw [if_neg (fun h => hk h.symm)] at this
              omega
        obtain ⟨s', h1, h2⟩ := ih _ _ hn' hr ha'
        refine ⟨s', ?_, h2⟩
        rw [run, step, hm]
        simp only [destroy, if_pos hne, closeLib]
        rw [if_pos (by rw [ha.refs]; exact hpos)]
        exact h1

/-! ### C78 -/

/-- **C78** (partial): for every proper history, over any number of modules and libraries: no library is used or released that
is not loaded; each library has exactly one reference for each module that loaded it and still exists; and each module holds
the library of its file and the database that library gives.

Missing from the full property: modules loaded twice, copied modules, null hosts (see below). -/
theorem C78_lifetimes_partial (mc : Machine) (ops : List Op) (n : Nat) (hn : ∀ op ∈ ops, below n op = true)
    (hp : Proper mc (fun _ => none) ops) :
    ∃ s, run mc ops start = .ok s ∧
      (∀ h, s.refs h = users mc (aliveAfter mc (fun _ => none) ops) h n) ∧
      ∀ i, match aliveAfter mc (fun _ => none) ops i with
        | none => s.mods i = none
        | some x => ∃ m, s.mods i = some m ∧ IsFor mc m x := by
  obtain ⟨s, h1, h2⟩ := agrees_run mc n ops _ _ hn hp (agrees_start mc n)
  exact ⟨s, h1, h2.refs, h2.mods⟩

/-- **C78**, in particular: when all modules are gone, so are all libraries. -/
theorem C78_nothing_left_partial (mc : Machine) (ops : List Op) (n : Nat) (hn : ∀ op ∈ ops, below n op = true)
    (hp : Proper mc (fun _ => none) ops) (hgone : ∀ i, aliveAfter mc (fun _ => none) ops i = none) :
    ∃ s, run mc ops start = .ok s ∧ ∀ h, s.refs h = 0 := by
  obtain ⟨s, h1, h2, -⟩ := C78_lifetimes_partial mc ops n hn hp
  refine ⟨s, h1, fun h => ?_⟩
  rw [h2]
  clear hn h2
  induction n with
  | zero => rfl
  | succ n ih =>
    simp only [users, hgone]
    simpa using ih

/-- **C78**: looking up a function in a module without a library fails an assertion. -/
theorem C78_not_loaded_asserts (mc : Machine) (r : Refs) (m : Module) (h : m.handle = 0) (name : Bytes) :
    getFunction mc r m name = .trap := by
  simp [getFunction, h]

/-- C78 is false of modules loaded twice: the first library is never released, whether the second is found or not; if it is
not found the module still gives the database of the first. -/
theorem C78_loaded_twice_false (mc : Machine) (f g : Bytes) (lib : Nat) (hf : mc.library f = some lib) (hg : mc.library g ≠ some lib)
    (host : Nat) (hh : host ≠ 0) :
    ∃ s, run mc [.create 0, .load 0 host f, .load 0 host g, .destroy 0] start = .ok s ∧ s.refs lib = 1 := by
  have hne := mc.library_ne f lib hf
  cases hl : mc.library g with
  | none =>
    by_cases hs : (mc.symbol lib b!"GetReflectionDatabase").getD 0 = 0 <;>
      simp [run, step, start, setMod, load, openLib, hf, hl, hne, hh, getFunction, findSymbol, destroy, hs]
  | some lib2 =>
    have hne2 := mc.library_ne g lib2 hl
    have hd : lib2 ≠ lib := by
      intro h
      rw [hl, h] at hg
      exact hg rfl
    by_cases hs : (mc.symbol lib b!"GetReflectionDatabase").getD 0 = 0 <;>
      by_cases hs2 : (mc.symbol lib2 b!"GetReflectionDatabase").getD 0 = 0 <;>
        simp [run, step, start, setMod, load, openLib, hf, hl, hne, hne2, hh, getFunction, findSymbol, destroy, closeLib, hs, hs2, hd,
          hd.symm]

/-- C78 is false of a second library that is not found: the module, which has no library then, still gives the database of
the first. -/
theorem C78_stale_database_false (mc : Machine) (f g : Bytes) (lib : Nat) (hf : mc.library f = some lib) (hg : mc.library g = none)
    (hs : (mc.symbol lib b!"GetReflectionDatabase").getD 0 ≠ 0) (host : Nat) (hh : host ≠ 0) :
    ∃ s m, run mc [.create 0, .load 0 host f, .load 0 host g] start = .ok s ∧ s.mods 0 = some m ∧ m.handle = 0 ∧
      m.db = mc.database lib := by
  have hne := mc.library_ne f lib hf
  simp [run, step, start, setMod, load, openLib, hf, hg, hne, hh, getFunction, findSymbol, hs]

/-- C78 is false of copied modules: both release the library, the second time it is undefined. -/
theorem C78_copied_undefined (mc : Machine) (f : Bytes) (lib : Nat) (hf : mc.library f = some lib) (host : Nat) (hh : host ≠ 0) :
    run mc [.create 0, .load 0 host f, .copy 0 1, .destroy 0, .destroy 1] start = .ub := by
  have hne := mc.library_ne f lib hf
  by_cases hs : (mc.symbol lib b!"GetReflectionDatabase").getD 0 = 0 <;>
    simp [run, step, start, setMod, load, openLib, hf, hne, hh, getFunction, findSymbol, destroy, closeLib, hs]

/-- C78: a null host is noticed only if the library is found, and after it was loaded. -/
theorem C78_null_host_asserts (mc : Machine) (f : Bytes) (lib : Nat) (hf : mc.library f = some lib) :
    run mc [.create 0, .load 0 0 f] start = .trap := by
  have hne := mc.library_ne f lib hf
  simp [run, step, start, setMod, load, openLib, hf, hne]

/-! ### Examples -/

/-- Two libraries, the first with a database. -/
def demoMachine : Machine where
  library f := if f = b!"game" then some 100 else if f = b!"tool" then some 200 else none
  library_ne f h hh := by
    split at hh
    · cases hh; decide
    · split at hh
      · cases hh; decide
      · cases hh
  symbol h n := if h = 100 ∧ n = b!"GetReflectionDatabase" then some 5000 else none
  database h := h + 1

def demoOps : List Op :=
  [.create 0, .create 1, .create 2, .load 0 9 b!"game", .load 1 9 b!"game", .load 2 9 b!"none", .load 2 9 b!"tool",
    .getFunction 0 b!"x", .destroy 0, .getFunction 1 b!"y", .destroy 2]

/-- The hypotheses of `C78_lifetimes_partial` are met: one library is left, by the second module. -/
example : ∃ s, run demoMachine demoOps start = .ok s ∧ s.refs 100 = 1 ∧ s.refs 200 = 0 := by
  have hp : Proper demoMachine (fun _ => none) demoOps :=
    .create rfl (.create rfl (.create rfl (.load rfl (by decide) (.load rfl (by decide) (.load rfl (by decide) (.load rfl (by decide)
      (.getFunction (f := b!"game") rfl (.destroy rfl (.getFunction (f := b!"game") rfl (.destroy rfl .nil))))))))))
  obtain ⟨s, h1, h2, -⟩ := C78_lifetimes_partial demoMachine demoOps 3 (by decide) hp
  exact ⟨s, h1, by rw [h2]; rfl, by rw [h2]; rfl⟩

/-- The hypotheses of the negations are met. -/
example : demoMachine.library b!"game" = some 100 ∧ demoMachine.library b!"tool" ≠ some 100 ∧ demoMachine.library b!"none" = none ∧
    (demoMachine.symbol 100 b!"GetReflectionDatabase").getD 0 ≠ 0 := by decide +kernel

end Clr.Mod
