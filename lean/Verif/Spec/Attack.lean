import Verif.Spec.Driver

/-!
# Specifications for reports that pass the crawl's checks
-/

namespace Mastic.Spec

/-- `k'` is `k` with other payloads (`word`) in its correction words: the payloads at level `l` agree in
every entry `i` with `B l i`; the other entries are arbitrary. -/
structure Twin (B : Nat → Nat → Prop) (k k' : VidpfKey) : Prop where
  keyIdx : k.keyIdx = k'.keyIdx
  rootSeed : k.rootSeed = k'.rootSeed
  cs : k.cs = k'.cs
  skeleton : List.Forall₂ (fun c c' => c.seed = c'.seed ∧ c.bits = c'.bits) k.corWords k'.corWords
  payload : ∀ (l : Nat) (c c' : CorWord), k.corWords[l]? = some c → k'.corWords[l]? = some c' →
    ∀ i, B l i → c.word[i]? = c'.word[i]?

/-- Two report shares that differ at most in the payloads of the key's correction words. -/
def ReportTwin (B : Nat → Nat → Prop) : ReportShare → ReportShare → Prop
  | .mastic a k p j, .mastic a' k' p' j' => a = a' ∧ p = p' ∧ j = j' ∧ Twin B k k'
  | .prio3 a b c, .prio3 a' b' c' => a = a' ∧ b = b' ∧ c = c'
  | _, _ => False

/-- `key` with `delta` added to the payload of the correction word of level `l`. -/
def shiftWord (key : VidpfKey) (l : Nat) (delta : List Field128) : VidpfKey :=
  { key with corWords := key.corWords.modify l fun c => { c with word := addShares c.word delta } }

/-- Requests of a crawl session for `n` buckets (no metrics), with twin uploads. -/
inductive ReqTwin (n : Nat) (B : Nat → Nat → Prop) : Req → Req → Prop
  | upload (a b : List ReportShare) (h : List.Forall₂ (ReportTwin B) a b) :
      ReqTwin n B (.addReportShares a) (.addReportShares b)
  | reset (vk : Block) : ReqTwin n B (.reset vk n) (.reset vk n)
  | treeInit : ReqTwin n B .treeInit .treeInit
  | treeCrawl (s : Nat) (m : List Nat) (l : Bool) : ReqTwin n B (.treeCrawl s m l) (.treeCrawl s m l)
  | runFlpQueries (s e : Nat) : ReqTwin n B (.runFlpQueries s e) (.runFlpQueries s e)
  | applyFlpResults (k : List Bool) : ReqTwin n B (.applyFlpResults k) (.applyFlpResults k)
  | treeCrawlLast : ReqTwin n B .treeCrawlLast .treeCrawlLast
  | getProofs (s e : Nat) : ReqTwin n B (.getProofs s e) (.getProofs s e)
  | treePrune (k : List Bool) : ReqTwin n B (.treePrune k) (.treePrune k)
  | finalShares : ReqTwin n B .finalShares .finalShares

/-- The parts of two answers to `req` that the driver uses to check reports are the same: everything but
the aggregated values. -/
def SameChecks : Req → Resp → Resp → Prop
  | .treeCrawl .., .crawl a, .crawl b => a.roots = b.roots ∧ a.indices = b.indices ∧
      a.cntValues.length = b.cntValues.length
  | .treeCrawlLast, .fieldVecs a, .fieldVecs b => a.length = b.length
  | .finalShares, .shares a, .shares b => a.map HHResult.path = b.map HHResult.path
  | _, a, b => a = b

/-- Both requests panicked alike, or both returned answers with the same checks. -/
def SameOutcome (q : Req) : Exec Resp → Exec Resp → Prop
  | .ok a, .ok b => SameChecks q a b
  | .error p, .error p' => p = p'
  | _, _ => False

/-- Which reports of a server are included. -/
def flagsOf {P : Prims} : Server P → Option (List Bool)
  | .running kc => some (kc.reportShares.map Prod.fst)
  | .poisoned => none

end Mastic.Spec
