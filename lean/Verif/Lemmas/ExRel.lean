import Verif.Lemmas.Exec
import Mathlib.Data.List.Forall2

/-!
# Helper lemmas: two computations that run in parallel

`ExRel R x y`: both panic in the same way, or both return with results related by `R`.
-/

namespace Mastic

variable {α β γ δ σ τ : Type}

/-- Both panic alike, or both return related results. -/
def ExRel (R : α → β → Prop) : Exec α → Exec β → Prop
  | .ok a, .ok b => R a b
  | .error p, .error q => p = q
  | _, _ => False

@[simp] theorem exRel_ok {R : α → β → Prop} {a : α} {b : β} :
    ExRel R (.ok a) (.ok b) ↔ R a b := Iff.rfl

@[simp] theorem exRel_error {R : α → β → Prop} {p q : Panic} :
    ExRel R (.error p) (.error q) ↔ p = q := Iff.rfl

theorem ExRel.refl {R : α → α → Prop} (h : ∀ a, R a a) (x : Exec α) : ExRel R x x := by
  cases x with
  | error p => rfl
  | ok a => exact h a

theorem ExRel.of_eq {x y : Exec α} (h : x = y) : ExRel Eq x y := h ▸ ExRel.refl (fun _ => rfl) x

theorem ExRel.eq {x y : Exec α} (h : ExRel Eq x y) : x = y := by
  cases x <;> cases y <;> simp_all [ExRel]

theorem ExRel.mono {R S : α → β → Prop} {x : Exec α} {y : Exec β} (h : ExRel R x y)
    (hs : ∀ a b, R a b → S a b) : ExRel S x y := by
  cases x <;> cases y <;> simp_all [ExRel]

theorem ExRel.bind {R : α → β → Prop} {S : γ → δ → Prop} {x : Exec α} {y : Exec β}
    {f : α → Exec γ} {g : β → Exec δ} (h : ExRel R x y) (hs : ∀ a b, R a b → ExRel S (f a) (g b)) :
    ExRel S (x >>= f) (y >>= g) := by
  cases x <;> cases y <;> simp_all [ExRel]

theorem ExRel.ok_left {R : α → β → Prop} {x : Exec α} {y : Exec β} (h : ExRel R x y) {a : α}
    (hx : x = .ok a) : ∃ b, y = .ok b ∧ R a b := by
  subst hx
  cases y with
  | error p => exact absurd h (by simp [ExRel])
  | ok b => exact ⟨b, rfl, h⟩

theorem ExRel.mapE {Q : α → β → Prop} {R : γ → δ → Prop} {f : α → Exec γ} {g : β → Exec δ}
    {l : List α} {l' : List β} (hl : List.Forall₂ Q l l') (h : ∀ a b, Q a b → ExRel R (f a) (g b)) :
    ExRel (List.Forall₂ R) (mapE f l) (mapE g l') := by
  induction hl with
  | nil => exact List.Forall₂.nil
  | cons hab _ ih =>
    rw [mapE_cons, mapE_cons]
    refine (h _ _ hab).bind fun c d hcd => ?_
    exact ih.bind fun cs ds hcs => List.Forall₂.cons hcd hcs

theorem ExRel.foldE {Q : α → β → Prop} {R : σ → τ → Prop} {f : σ → α → Exec σ} {g : τ → β → Exec τ}
    {l : List α} {l' : List β} (hl : List.Forall₂ Q l l')
    (h : ∀ s t a b, R s t → Q a b → ExRel R (f s a) (g t b)) : ∀ {s : σ} {t : τ}, R s t →
    ExRel R (foldE f s l) (foldE g t l') := by
  induction hl with
  | nil => intro s t hs; exact hs
  | cons hab _ ih =>
    intro s t hs
    rw [foldE_cons, foldE_cons]
    exact (h _ _ _ _ hs hab).bind fun s' t' hs' => ih hs'

theorem forall₂_getElem? {R : α → β → Prop} {l : List α} {l' : List β} (h : List.Forall₂ R l l')
    (i : Nat) : (l[i]? = none ∧ l'[i]? = none) ∨ ∃ a b, l[i]? = some a ∧ l'[i]? = some b ∧ R a b := by
  induction h generalizing i with
  | nil => exact Or.inl (by simp)
  | cons hab _ ih =>
    cases i with
    | zero => exact Or.inr ⟨_, _, rfl, rfl, hab⟩
    | succ i => simpa using ih i

theorem ExRel.idx {R : α → β → Prop} {l : List α} {l' : List β} (h : List.Forall₂ R l l') (i : Nat) :
    ExRel R (idx l i) (idx l' i) := by
  rcases forall₂_getElem? h i with ⟨h1, h2⟩ | ⟨a, b, h1, h2, hab⟩
  · unfold Mastic.idx; rw [h1, h2]; exact rfl
  · unfold Mastic.idx; rw [h1, h2]; exact hab

theorem forall₂_refl_of {R : α → α → Prop} (h : ∀ a, R a a) (l : List α) : List.Forall₂ R l l := by
  induction l with
  | nil => exact .nil
  | cons a l ih => exact .cons (h a) ih

theorem forall₂_map_eq_map {R : α → β → Prop} {f : α → γ} {g : β → γ} {l : List α} {l' : List β}
    (h : List.Forall₂ R l l') (hf : ∀ a b, R a b → f a = g b) : l.map f = l'.map g := by
  induction h with
  | nil => rfl
  | cons hab _ ih => rw [List.map_cons, List.map_cons, hf _ _ hab, ih]

theorem forall₂_zipIdx {R : α → β → Prop} {l : List α} {l' : List β} (h : List.Forall₂ R l l')
    (k : Nat) : List.Forall₂ (fun x y => R x.1 y.1 ∧ x.2 = y.2) (l.zipIdx k) (l'.zipIdx k) := by
  induction h generalizing k with
  | nil => exact .nil
  | cons hab _ ih => exact .cons ⟨hab, rfl⟩ (ih (k + 1))

theorem forall₂_flatten {R : α → β → Prop} {l : List (List α)} {l' : List (List β)}
    (h : List.Forall₂ (List.Forall₂ R) l l') : List.Forall₂ R l.flatten l'.flatten := by
  induction h with
  | nil => exact .nil
  | cons hab _ ih => exact List.rel_append hab ih

theorem forall₂_eq {l l' : List α} (h : List.Forall₂ Eq l l') : l = l' := by
  induction h with
  | nil => rfl
  | cons hab _ ih => rw [hab, ih]

theorem forall₂_append {R : α → β → Prop} {a b : List α} {a' b' : List β} (h : List.Forall₂ R a a')
    (h' : List.Forall₂ R b b') : List.Forall₂ R (a ++ b) (a' ++ b') := List.rel_append h h'

end Mastic
