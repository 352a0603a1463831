import Verif.Proofs.Plan2
/-
Lemmas for C85: pointers of an exported database, and what the linker needs to know of where the tables are.
-/
namespace Clr.Image
open Clr Clr.Reloc Clr.Layout
open Clr.Export (K Slot Ref Ptr St Exportable exportDB copied scopesBuilt final_of)
attribute [local irreducible] DB.hashOf

theorem ptr_resolved {cn : K → Nat} {d : Data} (hc : d.st.count = cn) {x : Ptr} (h : Link.PtrOK cn Link.Zero x) : Resolved d x := by
  cases x with
  | raw n => exact h
  | obj r => show r.2 < d.st.count r.1; rw [hc]; exact h

/-- Every pointer leads somewhere. -/
theorem linked_of {env : Export.Env} {fuel : Nat} {db : DB.Database} {F : St} (hr : Export.Ready env fuel db)
    (ha : ∀ t ∈ db.templateTypes, ∀ x ∈ [t.a0, t.a1, t.a2, t.a3], x.type.hash = 0 ∨ Export.Known db x.type.hash)
    (hp : ∀ a ∈ db.primitiveAttributes, a.value.hash = 0 ∨ Export.Known db a.value.hash)
    (ho : ∀ i, i < db.primitiveAttributes.length → ∃ r, Export.AttributeOf db (.primAttr, i) r)
    (hF : exportDB env fuel db = some (.ok F)) (fb : Nat) : Linked (dataOf fb db F) := by
  have h := hr.exportable
  have inv := Link.exportDB_inv h ha hp hF
  have hc : (dataOf fb db F).st.count = (copied db).count := inv.count
  have hin : ∀ {x : Ref}, Link.In (copied db).count x → Exists (dataOf fb db F) x := by
    intro x hx
    show x.2 < (dataOf fb db F).st.count x.1
    rw [hc]
    exact hx
  have zero : ∀ {c : Prop} [Decidable c] {x : Ptr},
      Link.PtrOK (copied db).count (if c then Link.Zero else Link.Zero) x → Resolved (dataOf fb db F) x := by
    intro c _ x hx
    refine ptr_resolved hc ?_
    split at hx <;> exact hx
  refine ⟨?_, ?_, ?_, ?_⟩
  · intro r hv
    have o := inv.objects r
    have hd : r.1 = .container → r.2 < (copied db).count .container := by
      intro e
      have : r.2 < (dataOf fb db F).st.count r.1 := hv
      rw [hc, e] at this
      exact this
    refine ⟨?_, zero o.type, fun x hx => zero (o.args x hx), zero o.target, ptr_resolved hc (o.readIt hd),
      ptr_resolved hc (o.writeIt hd), fun x hx => hin (o.ret x hx), fun x hx => hin (o.ctor x hx),
      fun x hx => hin (o.dtor x hx), fun x hx => hin (o.ci x hx), fun s x hx => hin (o.kids s x hx)⟩
    by_cases e : r.1 = .primAttr
    · obtain ⟨k, i⟩ := r
      have e : k = .primAttr := e
      subst e
      have hv : i < (dataOf fb db F).st.count .primAttr := hv
      rw [hc] at hv
      have hl : i < db.primitiveAttributes.length := by simpa [copied, Export.rows] using hv
      obtain ⟨q, hq⟩ := ho i hl
      obtain ⟨p, hp⟩ := Export.copied_entry (r := (.primAttr, i)) hv (by simp)
      have := (Export.C17_back_pointers_partial env fuel db hr F hF (.primAttr, i) p hp (by simp)).1 q (.inr hq)
      show Resolved _ (F.get _).parent
      rw [this]
      refine hin ?_
      obtain ⟨_, _, _, ⟨_, x, hx, _⟩ | ⟨_, s, ⟨_, ⟨x, _, hx, _⟩, _⟩, _⟩⟩ := hq
      · exact (Export.entry_copied hx).1
      · exact (Export.entry_copied hx).1
    · exact zero (o.parent e)
  · intro s x hx
    exact hin (inv.globals s x hx)
  · intro r
    have := (Export.C18_tables_sorted_partial env fuel db hr F hF).2.2.2.2.1 r
    show r ∈ F.typePrims ↔ _
    rw [this]
    constructor
    · rintro ⟨h1, h2⟩
      refine ⟨h1, ?_⟩
      obtain ⟨p, h2⟩ := h2
      exact hin (Export.entry_copied h2).1
    · rintro ⟨h1, h2⟩
      refine ⟨h1, (Export.entry_valid ?_).2 ?_⟩
      · intro e
        rw [e] at h1
        exact absurd h1 (by decide)
      · have : r.2 < (dataOf fb db F).st.count r.1 := h2
        rw [hc] at this
        exact this
  · exact (Export.C18_tables_sorted_partial env fuel db hr F hF).2.2.2.1

theorem size_fixed (db : DB.Database) {a : Area} (ha : fixedArea a = true) :
    sizeIn (fixedPieces db) a = expected db (copied db) (copied db) a := by
  refine size_of (fixed_piece db ha) fun p hp hu => piece_size (fks := []) ?_ hu
  unfold pieces
  exact List.mem_append_left _ (List.mem_append_left _ (List.mem_append_left _ hp))

theorem table_rows (db : DB.Database) (k : K) : Export.tableSize db k = (Export.rows db k).length := by
  cases k <;> simp [Export.tableSize, Export.rows, Export.entries]

/-- What the linker needs to know of where the tables are. -/
theorem laidOut_of (start : Nat) (junk : Ptr) (sort : (Ref → UInt32) → List Ref → List Ref) (db : DB.Database)
    (far : 2 ^ 32 ≤ start)
    (hs : ∀ (key : Ref → UInt32) (l : List Ref), (sort key l).Perm l ∧ (sort key l).Pairwise fun a b => key a ≤ key b)
    (noAlias : ∀ r : Ref, r.2 < Export.tableSize db r.1 → ¬ Export.Known db (UInt32.ofNat ((envOf start junk sort db).addr r)))
    (noFieldAlias : ∀ r : Ref, r.2 < Export.tableSize db r.1 → ∀ c s, Export.Records db c s →
      DB.hashOf (Export.nameText db s ++ b!"::" ++ Export.nameText db c) ≠ UInt32.ofNat ((envOf start junk sort db).addr r)) :
    Export.LaidOut (envOf start junk sort db) db := by
  refine ⟨?_, fun k => Nat.lt_of_lt_of_le (by decide) (stride_pos k), ?_, hs, noAlias, noFieldAlias⟩
  · intro k
    show 2 ^ 32 ≤ start + _
    omega
  · rintro ⟨j, i⟩ k hi hjk ⟨h1, h2⟩
    have hjk : j ≠ k := hjk
    obtain ⟨o, ho⟩ := fixed_offset db (a := .table j) rfl
    obtain ⟨q, hq⟩ := fixed_offset db (a := .table k) rfl
    have e1 : (envOf start junk sort db).addr (j, i) = start + o + i * stride j := by
      show start + (offsetIn (fixedPieces db) (.table j)).getD 0 + i * stride j = _
      rw [ho]; rfl
    have e2 : (envOf start junk sort db).base k = start + q := by
      show start + (offsetIn (fixedPieces db) (.table k)).getD 0 = _
      rw [hq]; rfl
    have e3 : (envOf start junk sort db).stride k = stride k := rfl
    rw [e1, e2] at h1 h2
    rw [e3, table_rows] at h2
    have hi : i < (Export.rows db j).length := by rw [← table_rows]; exact hi
    have s1 := size_fixed db (a := .table j) rfl
    have s2 := size_fixed db (a := .table k) rfl
    have s1 : sizeIn (fixedPieces db) (.table j) = (Export.rows db j).length * stride j := s1
    have s2 : sizeIn (fixedPieces db) (.table k) = (Export.rows db k).length * stride k := s2
    have hm : (i + 1) * stride j ≤ (Export.rows db j).length * stride j := Nat.mul_le_mul_right _ hi
    rw [Nat.succ_mul] at hm
    have := stride_pos j
    have hne : Area.table j ≠ Area.table k := by intro e; injection e with e; exact hjk e
    rcases offset_apart hne ho hq with h | h
    · omega
    · omega

/-- The exported tables are where the linker thought they were. -/
theorem addr_at (start : Nat) (junk : Ptr) (sort : (Ref → UInt32) → List Ref → List Ref) (db : DB.Database) (S F : St)
    (fks : List UInt32) (r : Ref) :
    (envOf start junk sort db).addr r = start + (placeOf db (pieces db S F fks)).at r := by
  show start + (offsetIn (fixedPieces db) (.table r.1)).getD 0 + r.2 * stride r.1 =
    start + ((offsetIn (pieces db S F fks) (.table r.1)).getD 0 + r.2 * stride r.1)
  rw [fixed_whole db S F fks rfl]
  omega

end Clr.Image
