import Verif.Model.Base
import Mathlib.Tactic.Common

/-!
# Helper lemmas: panicking computations
-/

namespace Mastic

section
variable {α β γ σ : Type}

@[simp] theorem ok_bind (a : α) (f : α → Exec β) : ((Except.ok a : Exec α) >>= f) = f a := rfl
@[simp] theorem error_bind (p : Panic) (f : α → Exec β) :
    ((Except.error p : Exec α) >>= f) = .error p := rfl

theorem bind_eq_ok {e : Exec α} {f : α → Exec β} {b : β} :
    (e >>= f) = .ok b ↔ ∃ a, e = .ok a ∧ f a = .ok b := by
  cases e <;> simp

theorem idx_eq_ok {l : List α} {i : Nat} {a : α} : idx l i = .ok a ↔ l[i]? = some a := by
  unfold idx; cases h : l[i]? <;> simp

theorem idx_eq_ok_of_lt {l : List α} {i : Nat} (h : i < l.length) : idx l i = .ok l[i] := by
  simp [idx_eq_ok, h]

theorem idx_error_of_ge {l : List α} {i : Nat} (h : l.length ≤ i) : idx l i = .error .index := by
  unfold idx; simp [h]

theorem unwrapO_eq_ok {o : Option α} {a : α} : unwrapO o = .ok a ↔ o = some a := by
  cases o <;> simp [unwrapO]

@[simp] theorem unwrapO_some (a : α) : unwrapO (some a) = .ok a := rfl

@[simp] theorem assertE_true : assertE true = .ok () := rfl
@[simp] theorem assertE_false : assertE false = .error .assertion := rfl

theorem assertE_eq_ok {b : Bool} {u : Unit} : assertE b = .ok u ↔ b = true := by
  cases b <;> simp [assertE]

@[simp] theorem debugAssert_true (bld : Build) : debugAssert bld true = .ok () := by
  cases bld <;> rfl

@[simp] theorem debugAssert_release (b : Bool) : debugAssert .release b = .ok () := rfl

@[simp] theorem debugAssert_debug_false : debugAssert .debug false = .error .debugAssertion := rfl

theorem debugAssert_eq_ok {bld : Build} {b : Bool} {u : Unit} :
    debugAssert bld b = .ok u ↔ (bld = .debug → b = true) := by
  cases bld <;> cases b <;> simp [debugAssert]

@[simp] theorem mapE_nil (f : α → Exec β) : mapE f [] = .ok [] := rfl

theorem mapE_cons (f : α → Exec β) (a : α) (as : List α) :
    mapE f (a :: as) = (f a >>= fun b => mapE f as >>= fun bs => .ok (b :: bs)) := rfl

theorem mapE_eq_ok {f : α → Exec β} {l : List α} {bs : List β} :
    mapE f l = .ok bs ↔ List.Forall₂ (fun a b => f a = .ok b) l bs := by
  induction l generalizing bs with
  | nil => cases bs <;> simp
  | cons a as ih =>
    rw [mapE_cons, bind_eq_ok]
    constructor
    · rintro ⟨b, hb, h⟩
      obtain ⟨bs', h1, h2⟩ := bind_eq_ok.1 h
      cases h2
      exact List.Forall₂.cons hb (ih.1 h1)
    · intro h
      cases h with
      | cons h1 h2 =>
        refine ⟨_, h1, ?_⟩
        rw [ih.2 h2]; rfl

theorem mapE_ok_of_forall {f : α → Exec β} {g : α → β} {l : List α}
    (h : ∀ a ∈ l, f a = .ok (g a)) : mapE f l = .ok (l.map g) := by
  induction l with
  | nil => rfl
  | cons a as ih =>
    rw [mapE_cons, h a (by simp), ih (fun x hx => h x (by simp [hx]))]; rfl

theorem mapE_length {f : α → Exec β} {l : List α} {bs : List β} (h : mapE f l = .ok bs) :
    bs.length = l.length := (mapE_eq_ok.1 h).length_eq.symm

theorem mapE_error_of_mem {f : α → Exec β} {l : List α} {a : α} (ha : a ∈ l)
    (h : Panics (f a)) : Panics (mapE f l) := by
  induction l with
  | nil => simp at ha
  | cons x xs ih =>
    rw [mapE_cons]
    rcases List.mem_cons.1 ha with rfl | ha'
    · obtain ⟨p, hp⟩ := h
      exact ⟨p, by rw [hp]; rfl⟩
    · cases hx : f x with
      | error p => exact ⟨p, rfl⟩
      | ok b =>
        obtain ⟨p, hp⟩ := ih ha'
        exact ⟨p, by rw [ok_bind, hp]; rfl⟩

theorem mapE_congr {f g : α → Exec β} {l : List α} (h : ∀ a ∈ l, f a = g a) :
    mapE f l = mapE g l := by
  induction l with
  | nil => rfl
  | cons a as ih =>
    rw [mapE_cons, mapE_cons, h a (by simp), ih (fun x hx => h x (by simp [hx]))]

theorem mapE_map {f : β → Exec γ} {g : α → β} {l : List α} :
    mapE f (l.map g) = mapE (fun a => f (g a)) l := by
  induction l with
  | nil => rfl
  | cons a as ih => rw [List.map_cons, mapE_cons, mapE_cons, ih]

theorem mapE_append {f : α → Exec β} {l₁ l₂ : List α} :
    mapE f (l₁ ++ l₂) = (mapE f l₁ >>= fun a => mapE f l₂ >>= fun b => .ok (a ++ b)) := by
  induction l₁ with
  | nil => simp only [List.nil_append, mapE_nil, ok_bind]; cases mapE f l₂ <;> rfl
  | cons a as ih =>
    rw [List.cons_append, mapE_cons, mapE_cons, ih]
    cases f a with
    | error p => rfl
    | ok b =>
      simp only [ok_bind]
      cases mapE f as with
      | error p => rfl
      | ok bs =>
        simp only [ok_bind]
        cases mapE f l₂ <;> rfl

theorem mapE_getElem {f : α → Exec β} {l : List α} {bs : List β} (h : mapE f l = .ok bs) (i : Nat)
    (hi : i < l.length) (hi' : i < bs.length) : f l[i] = .ok bs[i] :=
  (List.forall₂_iff_get.1 (mapE_eq_ok.1 h)).2 i hi hi'

@[simp] theorem foldE_nil (f : σ → α → Exec σ) (s : σ) : foldE f s [] = .ok s := rfl

theorem foldE_cons (f : σ → α → Exec σ) (s : σ) (a : α) (as : List α) :
    foldE f s (a :: as) = (f s a >>= fun s' => foldE f s' as) := rfl

theorem foldE_append (f : σ → α → Exec σ) (s : σ) (l₁ l₂ : List α) :
    foldE f s (l₁ ++ l₂) = (foldE f s l₁ >>= fun s' => foldE f s' l₂) := by
  induction l₁ generalizing s with
  | nil => rfl
  | cons a as ih =>
    rw [List.cons_append, foldE_cons, foldE_cons]
    cases f s a with
    | error p => rfl
    | ok s' => exact ih s'

theorem foldE_ok_of_forall {f : σ → α → Exec σ} {g : σ → α → σ} {l : List α}
    (h : ∀ s, ∀ a ∈ l, f s a = .ok (g s a)) (s : σ) : foldE f s l = .ok (l.foldl g s) := by
  induction l generalizing s with
  | nil => rfl
  | cons a as ih =>
    rw [foldE_cons, h s a (by simp), ok_bind, ih (fun s x hx => h s x (by simp [hx]))]; rfl

/-- Invariant rule for `foldE`. -/
theorem foldE_invariant {f : σ → α → Exec σ} {l : List α} (Inv : σ → Prop)
    (step : ∀ s, ∀ a ∈ l, ∀ s', Inv s → f s a = .ok s' → Inv s') {s s' : σ}
    (h0 : Inv s) (h : foldE f s l = .ok s') : Inv s' := by
  induction l generalizing s with
  | nil => cases h; exact h0
  | cons a as ih =>
    rw [foldE_cons] at h
    obtain ⟨s1, h1, h2⟩ := bind_eq_ok.1 h
    exact ih (fun s x hx => step s x (by simp [hx])) (step s a (by simp) s1 h0 h1) h2

theorem returns_iff {e : Exec α} : Returns e ↔ ∃ a, e = .ok a := Iff.rfl
theorem panics_iff {e : Exec α} : Panics e ↔ ∃ p, e = .error p := Iff.rfl

theorem not_returns_iff {e : Exec α} : ¬ Returns e ↔ Panics e := by
  cases e <;> simp [Returns, Panics]

theorem not_panics_iff {e : Exec α} : ¬ Panics e ↔ Returns e := by
  cases e <;> simp [Returns, Panics]

end

end Mastic
