import Verif.Model.Lib
import Verif.Lemmas.Exec
import Mathlib.Tactic.Ring
import Mathlib.Tactic.Abel

/-!
# Helper lemmas: vectors, bytes, XOR
-/

namespace Mastic

section vec
variable {F : Type}

@[simp] theorem vecAdd_length [Add F] (a b : List F) : (vecAdd a b).length = a.length := by
  induction a generalizing b with
  | nil => rfl
  | cons x xs ih => cases b <;> simp [vecAdd, ih]

@[simp] theorem vecSub_length [Sub F] (a b : List F) : (vecSub a b).length = a.length := by
  induction a generalizing b with
  | nil => rfl
  | cons x xs ih => cases b <;> simp [vecSub, ih]

@[simp] theorem vecNeg_length [Neg F] (a : List F) : (vecNeg a).length = a.length := by
  simp [vecNeg]

theorem vecAdd_getElem? [Add F] (a b : List F) (i : Nat) :
    (vecAdd a b)[i]? = match a[i]?, b[i]? with
      | some x, some y => some (x + y)
      | o, _ => o := by
  induction a generalizing b i with
  | nil => simp [vecAdd]
  | cons x xs ih =>
    cases b with
    | nil => simp [vecAdd]
    | cons y ys =>
      cases i with
      | zero => simp [vecAdd]
      | succ i => simpa [vecAdd] using ih ys i

theorem vecSub_getElem? [Sub F] (a b : List F) (i : Nat) :
    (vecSub a b)[i]? = match a[i]?, b[i]? with
      | some x, some y => some (x - y)
      | o, _ => o := by
  induction a generalizing b i with
  | nil => simp [vecSub]
  | cons x xs ih =>
    cases b with
    | nil => simp [vecSub]
    | cons y ys =>
      cases i with
      | zero => simp [vecSub]
      | succ i => simpa [vecSub] using ih ys i

theorem vecNeg_getElem? [Neg F] (a : List F) (i : Nat) :
    (vecNeg a)[i]? = (a[i]?).map (fun x => -x) := by
  simp [vecNeg]

theorem vecAdd_eq_zipWith [Add F] {a b : List F} (h : a.length ≤ b.length) :
    vecAdd a b = List.zipWith (· + ·) a b := by
  induction a generalizing b with
  | nil => rfl
  | cons x xs ih =>
    cases b with
    | nil => simp at h
    | cons y ys => simp only [vecAdd, List.zipWith_cons_cons]; rw [ih (by simpa using h)]

theorem vecAdd_getElem [Add F] {a b : List F} {i : Nat} (ha : i < a.length) (hb : i < b.length) :
    (vecAdd a b)[i]'(by simpa using ha) = a[i] + b[i] := by
  have := vecAdd_getElem? a b i
  simp only [List.getElem?_eq_getElem ha, List.getElem?_eq_getElem hb] at this
  rw [List.getElem?_eq_getElem (by simpa using ha)] at this
  exact Option.some.inj this

theorem vecSub_getElem [Sub F] {a b : List F} {i : Nat} (ha : i < a.length) (hb : i < b.length) :
    (vecSub a b)[i]'(by simpa using ha) = a[i] - b[i] := by
  have := vecSub_getElem? a b i
  simp only [List.getElem?_eq_getElem ha, List.getElem?_eq_getElem hb] at this
  rw [List.getElem?_eq_getElem (by simpa using ha)] at this
  exact Option.some.inj this

theorem vecAdd_comm [AddCommGroup F] {a b : List F} (h : a.length = b.length) :
    vecAdd a b = vecAdd b a := by
  induction a generalizing b with
  | nil => cases b <;> simp_all [vecAdd]
  | cons x xs ih =>
    cases b with
    | nil => simp at h
    | cons y ys => simp only [vecAdd]; rw [ih (by simpa using h), add_comm]

theorem vecAdd_right_comm [AddCommGroup F] (a b c : List F) :
    vecAdd (vecAdd a b) c = vecAdd (vecAdd a c) b := by
  induction a generalizing b c with
  | nil => rfl
  | cons x xs ih =>
    cases b <;> cases c <;> simp only [vecAdd]
    rw [ih]; congr 1; abel

theorem vecAdd_assoc [AddCommGroup F] {a b c : List F} (h : a.length ≤ b.length ∨ c.length ≤ b.length) :
    vecAdd (vecAdd a b) c = vecAdd a (vecAdd b c) := by
  induction a generalizing b c with
  | nil => rfl
  | cons x xs ih =>
    cases b <;> cases c <;> simp only [vecAdd]
    · simp at h
    · rw [ih (by simpa using h), add_assoc]

theorem vecSub_vecAdd [AddCommGroup F] (a b : List F) : vecSub (vecAdd a b) b = a := by
  induction a generalizing b with
  | nil => rfl
  | cons x xs ih => cases b <;> simp [vecAdd, vecSub, ih]

theorem vecAdd_vecSub [AddCommGroup F] (a b : List F) : vecAdd (vecSub a b) b = a := by
  induction a generalizing b with
  | nil => rfl
  | cons x xs ih => cases b <;> simp [vecAdd, vecSub, ih]

theorem vecNeg_vecNeg [AddCommGroup F] (a : List F) : vecNeg (vecNeg a) = a := by
  simp [vecNeg]

theorem vecAdd_vecNeg_self [AddCommGroup F] (a : List F) :
    vecAdd a (vecNeg a) = List.replicate a.length 0 := by
  induction a with
  | nil => rfl
  | cons x xs ih =>
    have : vecNeg (x :: xs) = -x :: vecNeg xs := rfl
    rw [this, vecAdd, ih]; simp [List.replicate_succ]

theorem vecAdd_zero_left [AddCommGroup F] {n : Nat} {b : List F} (h : b.length = n) :
    vecAdd (List.replicate n 0) b = b := by
  induction b generalizing n with
  | nil => subst h; rfl
  | cons y ys ih =>
    subst h
    simp only [List.length_cons, List.replicate_succ, vecAdd, zero_add]
    rw [ih rfl]

theorem vecAdd_zero_right [AddCommGroup F] (a : List F) (n : Nat) :
    vecAdd a (List.replicate n 0) = a := by
  induction a generalizing n with
  | nil => rfl
  | cons x xs ih => cases n <;> simp [List.replicate_succ, vecAdd, ih]

end vec

section xor

theorem xorInPlace_length (a b : List Byte) : (xorInPlace a b).length = a.length := by
  induction a generalizing b with
  | nil => rfl
  | cons x xs ih => cases b <;> simp [xorInPlace, ih]

theorem xorInPlace_getElem? (a b : List Byte) (i : Nat) :
    (xorInPlace a b)[i]? = match a[i]?, b[i]? with
      | some x, some y => some (x ^^^ y)
      | o, _ => o := by
  induction a generalizing b i with
  | nil => simp [xorInPlace]
  | cons x xs ih =>
    cases b with
    | nil => simp [xorInPlace]
    | cons y ys =>
      cases i with
      | zero => simp [xorInPlace]
      | succ i => simpa [xorInPlace] using ih ys i

theorem xorInPlace_self_inverse (a b : List Byte) : xorInPlace (xorInPlace a b) b = a := by
  induction a generalizing b with
  | nil => rfl
  | cons x xs ih => cases b <;> simp [xorInPlace, ih, BitVec.xor_assoc]

theorem xorInPlace_right_comm (a b c : List Byte) :
    xorInPlace (xorInPlace a b) c = xorInPlace (xorInPlace a c) b := by
  induction a generalizing b c with
  | nil => rfl
  | cons x xs ih =>
    rcases b with _ | ⟨y, ys⟩ <;> rcases c with _ | ⟨z, zs⟩ <;> simp only [xorInPlace]
    rw [ih, BitVec.xor_assoc, BitVec.xor_comm y z, ← BitVec.xor_assoc]

variable {n : Nat}

@[simp] theorem vxor_getElem (a b : Vector Byte n) (i : Nat) (h : i < n) :
    (vxor a b)[i] = a[i] ^^^ b[i] := by simp [vxor]

theorem vxor_comm (a b : Vector Byte n) : vxor a b = vxor b a := by
  ext i h : 1; simp [BitVec.xor_comm]

theorem vxor_assoc (a b c : Vector Byte n) : vxor (vxor a b) c = vxor a (vxor b c) := by
  ext i h : 1; simp [BitVec.xor_assoc]

@[simp] theorem vxor_self (a : Vector Byte n) : vxor a a = Vector.replicate n 0 := by
  ext i h : 1; simp

@[simp] theorem vxor_zero (a : Vector Byte n) : vxor a (Vector.replicate n 0) = a := by
  ext i h : 1; simp

@[simp] theorem zero_vxor (a : Vector Byte n) : vxor (Vector.replicate n 0) a = a := by
  rw [vxor_comm, vxor_zero]

theorem vxor_cancel_left (a b : Vector Byte n) : vxor a (vxor a b) = b := by
  rw [← vxor_assoc, vxor_self, zero_vxor]

theorem vxor_cancel_right (a b : Vector Byte n) : vxor (vxor a b) b = a := by
  rw [vxor_assoc, vxor_self, vxor_zero]

theorem vxor_left_inj {a b c : Vector Byte n} : vxor a b = vxor a c ↔ b = c := by
  constructor
  · intro h; rw [← vxor_cancel_left a b, h, vxor_cancel_left]
  · rintro rfl; rfl

theorem vxor_right_inj {a b c : Vector Byte n} : vxor a c = vxor b c ↔ a = b := by
  rw [vxor_comm a, vxor_comm b, vxor_left_inj]

theorem first16_vxor (a b : Vector Byte 32) :
    first16 (vxor a b) = vxor (first16 a) (first16 b) := by
  ext i h : 1; simp [first16, vxor]

/-- The list version on equally long lists agrees with the fixed-size one. -/
theorem xorVec_toList (a b : Vector Byte n) : xorVec a.toList b.toList = (vxor a b).toList := by
  simp [xorVec, vxor, Vector.toList_zipWith]

theorem xorInPlace_toList (a b : Vector Byte n) :
    xorInPlace a.toList b.toList = (vxor a b).toList := by
  apply List.ext_getElem?
  intro i
  rw [xorInPlace_getElem?]
  by_cases h : i < n
  · simp [h]
  · simp [h]

end xor

end Mastic
