import Verif.Spec.Crawl

/-!
# Specifications for the last level: keys that differ from the last level on only
-/

namespace Mastic.Spec

/-- The two keys agree on everything used for the first `l` levels; their correction words and correction
seeds of later levels are arbitrary (but as many). -/
def SameAbove (l : Nat) (k k' : VidpfKey) : Prop :=
  k'.keyIdx = k.keyIdx ∧ k'.rootSeed = k.rootSeed ∧ k'.corWords.length = k.corWords.length ∧
  k'.cs.length = k.cs.length ∧ ∀ i < l, k'.corWords[i]? = k.corWords[i]? ∧ k'.cs[i]? = k.cs[i]?

/-- The two Mastic reports differ only in their keys, and there only from level `l` on. -/
def SameShare (l : Nat) : ReportShare → ReportShare → Prop
  | .mastic nonce k proof parts, .mastic nonce' k' proof' parts' =>
    nonce' = nonce ∧ proof' = proof ∧ parts' = parts ∧ SameAbove l k k'
  | _, _ => False

/-- The same for whole report lists, with equal flags. -/
def SameReports (l : Nat) (r r' : List (Bool × ReportShare)) : Prop :=
  List.Forall₂ (fun a b => a.1 = b.1 ∧ SameShare l a.2 b.2) r r'

end Mastic.Spec
