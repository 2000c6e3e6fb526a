import Verif.Lemmas.Toy
import Verif.Props.Prg
import Verif.Spec.Vidpf

/-!
# C12: machines of different architectures
-/

namespace Mastic

/-- The values of two servers, on machines of the given kinds, of a report made on a machine of the kind `a`. -/
def mixedAt (P : Prims) (a a0 a1 : Arch) (alpha p : List Bool) : Option (List Field128) := do
  let k := VidpfKey.gen { P with arch := a } (Block.zero, Vector.replicate 16 1#8) alpha [1]
  let x ← Spec.valueAt { P with arch := a0 } k.1 1 p
  let y ← Spec.valueAt { P with arch := a1 } k.2 1 p
  some (Spec.addShares x y)

/-- The toy instance with a cipher in which a byte depends on two others. -/
def quadToy : Prims :=
  { toy with aes := fun c => Vector.ofFn fun i => c.toList.getD i.1 0 * (c.toList.getD ((i.1 + 5) % 16) 0 + 3) }

/-- **C12 is false of the code**, concretely.  A client on x86_64 reports the string `1` with weight 1.  If both servers
run on x86_64, their shares add up to the weight followed by the count at `1`, and to zero at `0`.  If one or both run
on another architecture, they do not add up to the weight and the count at `1`. -/
theorem C12_false_witness :
    mixedAt quadToy .x86_64 .x86_64 .x86_64 [true] [true] = some [1, 1] ∧
    mixedAt quadToy .x86_64 .x86_64 .x86_64 [true] [false] = some [0, 0] ∧
    (∃ v, mixedAt quadToy .x86_64 .x86_64 .other [true] [true] = some v ∧ v ≠ [1, 1]) ∧
    ∃ v, mixedAt quadToy .x86_64 .other .other [true] [true] = some v ∧ v ≠ [1, 1] := by
  refine ⟨by decide +kernel, by decide +kernel, ?_, ?_⟩
  · cases h : mixedAt quadToy .x86_64 .x86_64 .other [true] [true] with
    | none => exact absurd h (by decide +kernel)
    | some v =>
      refine ⟨v, rfl, ?_⟩
      rintro rfl
      exact absurd h (by decide +kernel)
  · cases h : mixedAt quadToy .x86_64 .other .other [true] [true] with
    | none => exact absurd h (by decide +kernel)
    | some v =>
      refine ⟨v, rfl, ?_⟩
      rintro rfl
      exact absurd h (by decide +kernel)

end Mastic
