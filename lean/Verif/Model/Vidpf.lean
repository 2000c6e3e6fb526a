import Verif.Model.Prg

/-!
# Model of `src/vidpf.rs`

Line numbers refer to `src/vidpf.rs`.
-/

namespace Mastic

/-- `TupleExt::get` (`src/vidpf.rs:168-175`). -/
def Pair.get {α : Type} (t : α × α) (val : Bool) : α :=
  match val with
  | false => t.1
  | true => t.2

/-- `CorWord` (`src/vidpf.rs:7-12`). -/
structure CorWord where
  seed : Block
  bits : Bool × Bool
  word : List Field128
  deriving DecidableEq

/-- `VidpfKey` (`src/vidpf.rs:14-27`). -/
structure VidpfKey where
  keyIdx : Bool
  rootSeed : Block
  corWords : List CorWord
  cs : List Block
  deriving DecidableEq

/-- `EvalState` (`src/vidpf.rs:29-42`). -/
structure EvalState where
  level : Nat
  seed : Block
  bit : Bool
  proof : Block
  deriving DecidableEq

/-- Result of one `gen_cor_word` call: the correction word and the updated `bits` and `seeds`.
(`src/vidpf.rs:190-243`) -/
structure GenStep where
  cw : CorWord
  bits : Bool × Bool
  seeds : Block × Block

/-- The per-server update inside the `for (b, seed)` loop of `gen_cor_word` (`src/vidpf.rs:214-227`):
new seed and new control bit of server `b`. -/
def genUpdate (data : PrgOutput) (keep : Bool) (bit : Bool) (cwSeed : Block) (cwBits : Bool × Bool) :
    Block × Bool :=
  let seed := Pair.get data.seeds keep
  let seed := if bit then vxor seed cwSeed else seed
  let newbit := Pair.get data.bits keep
  let newbit := if bit then newbit ^^ Pair.get cwBits keep else newbit
  (seed, newbit)

/-- `gen_cor_word` (`src/vidpf.rs:190-243`). -/
def genCorWord (P : Prims) (bit : Bool) (beta : List Field128) (bits : Bool × Bool)
    (seeds : Block × Block) : GenStep :=
  let data := (expand P seeds.1, expand P seeds.2)
  let keep := bit
  let lose := !keep
  let cwSeed := vxor (Pair.get data.1.seeds lose) (Pair.get data.2.seeds lose)
  let cwBits := ((data.1.bits.1 ^^ data.2.bits.1) ^^ bit ^^ true,
                 (data.1.bits.2 ^^ data.2.bits.2) ^^ bit)
  let u0 := genUpdate data.1 keep bits.1 cwSeed cwBits
  let u1 := genUpdate data.2 keep bits.2 cwSeed cwBits
  let inputLen := beta.length
  let conv0 := convert P u0.1 inputLen
  let conv1 := convert P u1.1 inputLen
  let word := beta ++ [1]
  let word := vecSub word conv0.word
  let word := vecAdd word conv1.word
  let word := if u1.2 then vecNeg word else word
  { cw := { seed := cwSeed, bits := cwBits, word := word }
    bits := (u0.2, u1.2)
    seeds := (conv0.seed, conv1.seed) }

/-- The loop of `VidpfKey::gen` (`src/vidpf.rs:262-284`).  `done` is the part of `alpha` already consumed
(`bit_str` is its bit string); returns the correction words and correction seeds pushed from here
on. -/
def genLoop (P : Prims) (beta : List Field128) :
    (rest done : List Bool) → (bits : Bool × Bool) → (seeds : Block × Block) →
    List CorWord × List Block
  | [], _, _, _ => ([], [])
  | bit :: rest, done, bits, seeds =>
    let done := done ++ [bit]
    let bitStr := bitsToBitstring done
    let g := genCorWord P bit beta bits seeds
    let pi0 := P.blake3 (bitStr ++ g.seeds.1.toList)
    let pi1 := P.blake3 (bitStr ++ g.seeds.2.toList)
    let c := first16 (vxor pi0 pi1)
    let r := genLoop P beta rest done g.bits g.seeds
    (g.cw :: r.1, c :: r.2)

/-- `VidpfKey::gen` (`src/vidpf.rs:251-300`).  The two random root seeds are inputs. -/
def VidpfKey.gen (P : Prims) (rootSeeds : Block × Block) (alpha : List Bool)
    (beta : List Field128) : VidpfKey × VidpfKey :=
  let r := genLoop P beta alpha [] (false, true) rootSeeds
  ({ keyIdx := false, rootSeed := rootSeeds.1, corWords := r.1, cs := r.2 },
   { keyIdx := true, rootSeed := rootSeeds.2, corWords := r.1, cs := r.2 })

/-- `VidpfKey::domain_size` (`src/vidpf.rs:471-473`). -/
def VidpfKey.domainSize (key : VidpfKey) : Nat := key.corWords.length

/-- `VidpfKey::get_root_seed` (`src/vidpf.rs:247-249`). -/
def VidpfKey.getRootSeed (key : VidpfKey) : Block := key.rootSeed

/-- `VidpfKey::eval_init` (`src/vidpf.rs:371-378`). -/
def VidpfKey.evalInit (key : VidpfKey) : EvalState :=
  { level := 0, seed := key.rootSeed, bit := key.keyIdx, proof := Block.zero }

/-- `src/vidpf.rs:313-316` of `eval_bit`: correct the seed and the bit when the state's bit is set. -/
def VidpfKey.correctSeed (key : VidpfKey) (state : EvalState) (dir : Bool) (seed : Block)
    (bit : Bool) : Exec (Block × Bool) :=
  if state.bit then do
    let cw ← idx key.corWords state.level
    .ok (vxor seed cw.seed, bit ^^ Pair.get cw.bits dir)
  else .ok (seed, bit)

/-- `src/vidpf.rs:321-324` of `eval_bit`: add the correction word when the new bit is set. -/
def VidpfKey.correctWord (key : VidpfKey) (level : Nat) (newBit : Bool) (word : List Field128) :
    Exec (List Field128) :=
  if newBit then do
    let cw ← idx key.corWords level
    .ok (vecAdd word cw.word)
  else .ok word

/-- `src/vidpf.rs:339-347` of `eval_bit`: the hash input `pi ^ pi_prime`, with the correction seed when the
new bit is set. -/
def VidpfKey.correctHash (key : VidpfKey) (state : EvalState) (newBit : Bool) (piPrime : Block) :
    Exec Block :=
  if !newBit then .ok (vxor state.proof piPrime)
  else do
    let c ← idx key.cs state.level
    .ok (vxor (vxor state.proof piPrime) c)

/-- `VidpfKey::eval_bit` (`src/vidpf.rs:302-369`).  `bitStr` is `bit_str.as_bytes()`. -/
def VidpfKey.evalBit (P : Prims) (key : VidpfKey) (state : EvalState) (dir : Bool)
    (bitStr : List Byte) (inputLen : Nat) : Exec (EvalState × List Field128) := do
  let tau := expandDir P state.seed (!dir) dir
  let seed0 := Pair.get tau.seeds dir
  let bit0 := Pair.get tau.bits dir
  let (seed, newBit) ← key.correctSeed state dir seed0 bit0
  let converted := convert P seed inputLen
  let newSeed := converted.seed
  let word ← key.correctWord state.level newBit converted.word
  let word := if key.keyIdx then vecNeg word else word
  let piPrime := first16 (P.blake3 (bitStr ++ newSeed.toList))
  let h ← key.correctHash state newBit piPrime
  let h2 := P.blake3 h.toList
  let proof := vxor (first16 h2) state.proof
  .ok ({ level := state.level + 1, seed := newSeed, bit := newBit, proof := proof }, word)

/-- The loop of `VidpfKey::eval` over all but the last bit (`src/vidpf.rs:394-400`): `done` is the path so
far. -/
def VidpfKey.evalLoop (P : Prims) (key : VidpfKey) (inputLen : Nat) :
    (bits done : List Bool) → EvalState → Exec (List (List Field128) × EvalState × List Bool)
  | [], done, st => .ok ([], st, done)
  | b :: bs, done, st => do
    let done := done ++ [b]
    let (st', word) ← key.evalBit P st b (bitsToBitstring done) inputLen
    let (out, stF, doneF) ← VidpfKey.evalLoop P key inputLen bs done st'
    .ok (word :: out, stF, doneF)

/-- `VidpfKey::eval` (`src/vidpf.rs:380-406`): returns `(out, last)` and the updated `pi`.  As in the code, the
last `eval_bit` is given the bit string *without* the last bit and its proof is discarded.  On an
empty index both builds panic (`debug_assert!`, or `idx.last().unwrap()`). -/
def VidpfKey.eval (P : Prims) (bld : Build) (key : VidpfKey) (index : List Bool) (pi : Block)
    (inputLen : Nat) : Exec (List (List Field128) × List Field128 × Block) := do
  debugAssert bld (decide (index.length ≤ key.domainSize))
  debugAssert bld (!index.isEmpty)
  let st := { key.evalInit with proof := pi }
  let (out, st', done) ← key.evalLoop P inputLen index.dropLast [] st
  let lastBit ← unwrapO index.getLast?
  let (_, last) ← key.evalBit P st' lastBit (bitsToBitstring done) inputLen
  .ok (out, last, st'.proof)

/-- `VidpfEvalNode` (`src/vidpf.rs:44-62`).  `nil` is `None` for a child link. -/
inductive EvalNode where
  | nil
  | node (bitStr : List Byte) (wordShare : Option (List Field128))
      (pathCheck : Option (List Field128)) (state : EvalState) (l r : EvalNode)

/-- `self.l.is_none()`. (`src/vidpf.rs:107-116`) -/
def EvalNode.isNil : EvalNode → Bool
  | .nil => true
  | .node .. => false

/-- `word_share` of a node that exists. (`src/vidpf.rs:44-62`) -/
def EvalNode.wordShare? : EvalNode → Option (List Field128)
  | .nil => none
  | .node _ w _ _ _ _ => w

/-- `VidpfEvalNode::new_root_from_key` (`src/vidpf.rs:65-74`). -/
def EvalNode.newRoot (key : VidpfKey) : EvalNode :=
  .node [] none none key.evalInit .nil .nil

/-- `VidpfEvalNode::next` (`src/vidpf.rs:76-87`). -/
def EvalNode.next (P : Prims) (key : VidpfKey) (inputLen : Nat) (bitStr : List Byte)
    (state : EvalState) (bit : Bool) : Exec EvalNode := do
  let bitStr := bitStr ++ [bitByte bit]
  let (st, word) ← key.evalBit P state bit bitStr inputLen
  .ok (.node bitStr (some word) none st .nil .nil)

/-- `vec_sub(path_check, word_share_child)` when both are present (`src/vidpf.rs:110-112`, 119-121). -/
def subOpt : Option (List Field128) → Option (List Field128) → Option (List Field128)
  | some p, some w => some (vecSub p w)
  | p, _ => p

/-- The bytes `eval_proof.update` receives for a path check (`src/vidpf.rs:130-132`). -/
def encodeFields (v : List Field128) : List Byte := (v.map encodeField).flatten

/-- `src/vidpf.rs:107-114` / 116-123 of `traverse`: compute the child if it is missing and subtract its word
share from the pending path check. -/
def EvalNode.ensureChild (P : Prims) (key : VidpfKey) (inputLen : Nat) (bitStr : List Byte)
    (state : EvalState) (bit : Bool) (child : EvalNode) (p : Option (List Field128)) :
    Exec (EvalNode × Option (List Field128)) :=
  if child.isNil then do
    let c ← EvalNode.next P key inputLen bitStr state bit
    .ok (c, subOpt p c.wordShare?)
  else .ok (child, p)

/-- `src/vidpf.rs:125-134` of `traverse`: the stored path check and the bytes hashed. -/
def finishCheck (key : VidpfKey) (c : Option (List Field128)) (p : Option (List Field128)) :
    Option (List Field128) × List Byte :=
  match p with
  | some pc =>
    let pc := if key.keyIdx then vecNeg pc else pc
    (some pc, encodeFields pc)
  | none => (c, [])

/-- `VidpfEvalNode::traverse` (`src/vidpf.rs:89-142`).  Returns the updated tree, the bytes appended to
`eval_proof`, and the word share and state of the node reached. -/
def EvalNode.traverse (P : Prims) (key : VidpfKey) (inputLen : Nat) :
    (path : List Bool) → EvalNode →
    Exec (EvalNode × List Byte × Option (List Field128) × EvalState)
  | _, .nil => .error .unwrap
  | [], .node bs w c st l r => .ok (.node bs w c st l r, [], w, st)
  | b :: path, .node bs w c st l r => do
    let p := if w.isSome && c.isNone then w else none
    -- left child
    let (l, p) ← EvalNode.ensureChild P key inputLen bs st false l p
    -- right child
    let (r, p) ← EvalNode.ensureChild P key inputLen bs st true r p
    -- finish the path check
    let (c, bytes) := finishCheck key c p
    if !b then do
      let (l', bytes', res) ← EvalNode.traverse P key inputLen path l
      .ok (.node bs w c st l' r, bytes ++ bytes', res)
    else do
      let (r', bytes', res) ← EvalNode.traverse P key inputLen path r
      .ok (.node bs w c st l r', bytes ++ bytes', res)

/-- The `for path in paths` loop of `eval_tree` (`src/vidpf.rs:428-433`). -/
def evalTreeLoop (P : Prims) (key : VidpfKey) (inputLen : Nat) :
    (paths : List (List Bool)) → EvalNode → Exec (List (List Field128) × EvalNode × List Byte)
  | [], root => .ok ([], root, [])
  | path :: paths, root => do
    assertE (path.length != 0)
    let (root, bytes, w, st) ← root.traverse P key inputLen path
    let v ← unwrapO w
    let (vs, rootF, bytesF) ← evalTreeLoop P key inputLen paths root
    .ok (v :: vs, rootF, bytes ++ st.proof.toList ++ bytesF)

/-- `VidpfKey::eval_tree` (`src/vidpf.rs:411-464`): value shares, share of `beta`, and everything that was fed
into `eval_proof`. -/
def VidpfKey.evalTree (P : Prims) (key : VidpfKey) (paths : List (List Bool)) (inputLen : Nat) :
    Exec (List (List Field128) × List Field128 × List Byte) := do
  let (values, root, bytes) ← evalTreeLoop P key inputLen paths (EvalNode.newRoot key)
  let (root, bytesL, wl, _) ← root.traverse P key inputLen [false]
  let y ← unwrapO wl
  let (_, bytesR, wr, _) ← root.traverse P key inputLen [true]
  let yr ← unwrapO wr
  let y := vecAdd y yr
  let counter ← idx y inputLen
  let counter := if key.keyIdx then -counter else counter
  let counter := counter + (if key.keyIdx then 1 else 0)
  .ok (values, y.take inputLen, bytes ++ bytesL ++ bytesR ++ encodeField counter)

/-- `VidpfKey::gen_from_str` (`src/vidpf.rs:466-469`). -/
def VidpfKey.genFromStr (P : Prims) (rootSeeds : Block × Block) (s : List Byte)
    (beta : List Field128) : Exec (VidpfKey × VidpfKey) := do
  let bits ← stringToBits s
  .ok (VidpfKey.gen P rootSeeds bits beta)

end Mastic
