import Verif.Spec.Crawl
import Verif.Model.Main
import Verif.Spec.Pm

/-!
# Specifications for whole runs of the driver program
-/

namespace Mastic.Spec

/-- String (of `d` bits) and weight (of `n` buckets) drawn for a generated report. -/
def drawn (n d : Nat) (r : ReportDraw) : List Bool × Nat := ((List.range d).map r.bits, r.bucket % n)

/-- The draws of the generated report that client `i` uses. -/
def MainDraw.of (draw : MainDraw) (i : Nat) : ReportDraw := draw.reports ((draw.picks i).1 - 1)

/-- The clients of a run: string and weight, or `none` for those whose FLP proof is tampered with. -/
def mainClients (n d : Nat) (draw : MainDraw) (num : Nat) : List (Option (List Bool × Nat)) :=
  (List.range num).map fun i => match (draw.picks i).2 with
    | some .flp => none
    | _ => some (drawn n d (MainDraw.of draw i))

/-- Whether the client tampers with its FLP proof. -/
def bumps : Option Tamper → Bool
  | some .flp => true
  | _ => false

/-- The configuration is sensible and the Zipf samples are in range. -/
structure Sensible (P : Prims) (cfg : Config) (draw : MainDraw) (num : Nat) : Prop where
  malicious : draw.maliciousOk = true
  zipf : draw.zipfOk = true
  hist : P.histOk cfg.histBuckets = true
  buckets : 1 ≤ cfg.histBuckets
  unique : 1 ≤ cfg.uniqueBuckets
  addBatch : 1 ≤ cfg.addBatch
  queryBatch : 1 ≤ cfg.queryBatch
  picks : ∀ i < num, 1 ≤ (draw.picks i).1 ∧ (draw.picks i).1 ≤ cfg.uniqueBuckets

/-- With the prover randomness of the run, the FLP prover produces a non-empty proof for every valid measurement,
whatever seeds the joint randomness is derived from. -/
def Proves (P : Prims) (cfg : Config) (draw : MainDraw) : Prop :=
  ∀ i < cfg.uniqueBuckets, ∀ (bucket : Nat) (beta : List Field128) (seed : Block) (binder : List Byte),
    encodeMeasurement cfg.histBuckets bucket = some beta →
    ∃ proof, P.flpProve cfg.histBuckets beta (draw.reports i).rand.proveRand
      (P.xofField seed binder (P.jointRandLen cfg.histBuckets)) = some proof ∧ proof ≠ []

/-- Every tampered proof of the run is rejected by the FLP verification. -/
def BumpsRejected (P : Prims) (n d : Nat) (id0 id1 : Int) (draw : MainDraw) (num : Nat) : Prop :=
  ∀ (i : Nat) (nonce : Block) (ks : VidpfKey × VidpfKey) (p0 ps : List Field128) (p : Field128)
    (jr : Block × Block) (alpha : List Bool), i < num → (draw.picks i).2 = some .flp →
    genMasticReport P n (drawn n d (MainDraw.of draw i)).1 (drawn n d (MainDraw.of draw i)).2
      (MainDraw.of draw i).rand = .ok (.mastic nonce ks (p0, p :: ps) jr alpha) →
    FlpRejected P n id0 id1 draw.verifyKey (.mastic nonce ks.1 p0 jr)
      (.mastic nonce ks.2 ((p + 1337) :: ps) jr)

/-- Every plain-metrics report of the run whose helper share has its first bit flipped is prepared and then rejected by
both servers. -/
def FlipsRejected (P : Prims) (n helperId : Nat) (draw : MainDraw) (num : Nat) : Prop :=
  ∀ (i : Nat) (nonce : Block) (pub in0 in1 : List Byte), i < num → (draw.picks i).2.isSome →
    genPrio3Report P n ((MainDraw.of draw i).bucket % n) (MainDraw.of draw i).rand.nonce
      (MainDraw.of draw i).prio3 = .ok (.prio3 nonce pub (in0, in1)) →
    ∃ b bs, in1 = b :: bs ∧ Prepared P n helperId draw.verifyKey draw.verifyKey (.prio3 nonce pub in0)
      (.prio3 nonce pub ((b ^^^ 1) :: bs)) ⟨none, none⟩

/-- The clients of a plain-metrics run: the weight, or `none` for those with a tampered input share. -/
def plainClients (n : Nat) (draw : MainDraw) (num : Nat) : List (Option Nat) :=
  (List.range num).map fun i => if (draw.picks i).2.isSome then none else some ((MainDraw.of draw i).bucket % n)

end Mastic.Spec
