import Verif.Proofs.VBinBytes
import Verif.Props.VBin
/-
C98: the bytes that saving an object in versioned binary form produces.
-/
namespace Clr.VBin
open Clr.JSON (Ty Flds Tys Mem FldInfo Const Env tInt memOf demoEnv)

/-- **C98**: if `SaveVersionedBinary` returns for an object of any type, it has appended one chunk to the buffer, with the hash of the
type's name, the number of bytes, and the bytes of the object: those of a number as in memory, the hash of the name of an enum's constant,
a chunk with the hashes of type and name for each field that is not transient, then the same for the base classes; and for lists a header
followed by the elements. What was in the buffer is unchanged. -/
theorem C98_saved_bytes (e : Env) (m : Mem) (t : Ty) (a : Nat) (before out : Bytes) (h : save e m t a before = .ok out) :
    ∃ x, Encodes e m t a x ∧ out = before ++ chunkBytes t.hash 0 x := by
  obtain ⟨y, h1, x, h2, h3⟩ := chunk_appends (object_appends e m t a) t.hash 0 before out h
  exact ⟨x, h2, by rw [h1, h3]⟩

/-- The bytes are determined by what the object holds: two saves of what is the same object, into whatever buffers, append the same. -/
theorem C98_same_bytes {e : Env} {m : Mem} {t : Ty} {a : Nat} {b1 b2 o1 o2 : Bytes} (h1 : save e m t a b1 = .ok o1)
    (h2 : save e m t a b2 = .ok o2) : (∀ x y, Encodes e m t a x → Encodes e m t a y → x = y) ∧ ∃ x, o1 = b1 ++ x ∧ o2 = b2 ++ x := by
  refine ⟨fun _ _ => encodes_unique, ?_⟩
  obtain ⟨x, hx, rfl⟩ := C98_saved_bytes e m t a b1 o1 h1
  obtain ⟨y, hy, rfl⟩ := C98_saved_bytes e m t a b2 o2 h2
  exact ⟨_, rfl, by rw [encodes_unique hx hy]⟩

/-- Reading `le 4` back. -/
theorem unle_four (n : Nat) (h : n < 2 ^ 32) : unle (le 4 n) = n := by
  rw [unle_le]
  exact Nat.mod_eq_of_lt h

/-- So whoever reads the buffer from where the object begins finds the hash of its type, and after the sizes of the two hashes the
number of the bytes that follow. -/
theorem C98_header (e : Env) (m : Mem) (t : Ty) (a : Nat) (before out : Bytes) (h : save e m t a before = .ok out) (hlen : out.length < 2 ^ 32) :
    unle ((out.drop before.length).take 4) = t.hash.toNat ∧ before.length + 12 ≤ out.length ∧
      unle ((out.drop (before.length + 8)).take 4) = out.length - (before.length + 12) ∧ out.take before.length = before := by
  obtain ⟨x, -, rfl⟩ := C98_saved_bytes e m t a before out h
  have hl : (chunkBytes t.hash 0 x).length = 12 + x.length := by simp [chunkBytes, counted, length_le]; omega
  have h1 : (before ++ chunkBytes t.hash 0 x).drop before.length = chunkBytes t.hash 0 x := by simp
  have h2 : (before ++ chunkBytes t.hash 0 x).drop (before.length + 8) = counted x := by
    rw [← List.drop_drop, h1]
    unfold chunkBytes
    rw [List.drop_left' (by simp [length_le])]
  have h8 : t.hash.toNat < 2 ^ 32 := t.hash.isLt
  rw [List.length_append, hl] at hlen ⊢
  refine ⟨?_, by omega, ?_, by simp⟩
  · rw [h1]
    unfold chunkBytes
    rw [List.append_assoc, List.take_left' (by simp [length_le]), unle_four _ h8]
  · rw [h2]
    unfold counted
    rw [List.take_left' (by simp [length_le]), unle_four _ (by omega)]
    omega

/-! ### Cases -/

/-- `struct Base { int z; }; struct Bytes : Base { int b[2]; int t; Base c[1]; int* r[2]; }`, `t` transient. -/
def tBytes : Ty :=
  .cls 7 40 0 (.cons ⟨b!"b", 4, 0, false, some 2⟩ tInt
    (.cons ⟨b!"t", 12, 1, false, none⟩ tInt
    (.cons ⟨b!"c", 16, 0, false, some 1⟩ (.cls 12 4 0 (.cons ⟨b!"z", 0, 0, false, none⟩ tInt .nil) .nil)
    (.cons ⟨b!"r", 24, 0, true, some 2⟩ tInt .nil))))
    (.cons (.cls 12 4 0 (.cons ⟨b!"z", 0, 0, false, none⟩ tInt .nil) .nil) .nil)

/-- It is saved, and so has bytes as specified. -/
theorem bytes_saved : ∃ out, save demoEnv (memOf [1, 0, 0, 0, 2, 0, 0, 0, 3, 0, 0, 0, 4, 4, 4, 4, 5]) tBytes 0 [9] = .ok out ∧
    out.length = 1 + 12 + (12 + 20 + 8) + (12 + 20 + (4 + 12 + 4)) + (12 + 20) + (12 + 4) := by
  have h : (match save demoEnv (memOf [1, 0, 0, 0, 2, 0, 0, 0, 3, 0, 0, 0, 4, 4, 4, 4, 5]) tBytes 0 [9] with
    | .ok out => out.length == 1 + 12 + (12 + 20 + 8) + (12 + 20 + (4 + 12 + 4)) + (12 + 20) + (12 + 4)
    | _ => false) = true := by decide +kernel
  cases hs : save demoEnv (memOf [1, 0, 0, 0, 2, 0, 0, 0, 3, 0, 0, 0, 4, 4, 4, 4, 5]) tBytes 0 [9] with
  | ok out => rw [hs] at h; exact ⟨out, rfl, by simpa using h⟩
  | trap => rw [hs] at h; cases h
  | ub => rw [hs] at h; cases h

example : ∃ x out, Encodes demoEnv (memOf [1, 0, 0, 0, 2, 0, 0, 0, 3, 0, 0, 0, 4, 4, 4, 4, 5]) tBytes 0 x ∧ out = [9] ++ chunkBytes 7 0 x ∧
    save demoEnv (memOf [1, 0, 0, 0, 2, 0, 0, 0, 3, 0, 0, 0, 4, 4, 4, 4, 5]) tBytes 0 [9] = .ok out := by
  obtain ⟨out, h, -⟩ := bytes_saved
  obtain ⟨x, h1, h2⟩ := C98_saved_bytes _ _ _ _ _ _ h
  exact ⟨x, out, h1, h2, h⟩

end Clr.VBin
