# Design: a Lean 4 model of TrustworthyComputing/mastic

Contents: 1 what is modelled, 2 conventions, 3 property by property (what is proved and how), 4 where the
code and the expected behaviour disagree, 5 trusted base and what is not modelled, 6 how the theorems were tested.

## 1. What is modelled

The model is a set of total, computable Lean functions, one per Rust function, in `lean/Verif/Model/`. Every
definition cites the file and lines it transcribes and says where it simplifies.

| Lean module | Rust source | contents |
|---|---|---|
| `Model/Base.lean`    | – | panics, builds, `[u8;16]`, Field128, external primitives (`Prims`), `mapE`/`foldE` |
| `Model/Lib.lean`     | `src/lib.rs` | bit/byte/string helpers, vector share arithmetic, `take`, measurement encoding |
| `Model/Prg.lean`     | `src/prg.rs` | stateful fixed-key AES stream (both refills, both architectures, debug assertions), `expand_dir`, `convert` |
| `Model/PrgStream.lean` | `src/prg.rs` | `to_rng`, `PrgStream` with what it prints, XOR of seeds |
| `Model/Vidpf.lean`   | `src/vidpf.rs` | `gen`, `eval_bit`, `eval`, the prefix-tree cache, `eval_tree` with its transcript |
| `Model/Merkle.lean`  | `rs_merkle` as used by `tree_crawl` | layers, root |
| `Model/Collect.lean` | `src/collect.rs` | the whole of `KeyCollection` |
| `Model/Server.lean`  | `src/bin/server.rs` | all RPC handlers, the mutex and its poisoning, request histories |
| `Model/Driver.lean`  | `src/bin/driver.rs` | client reports, tampering, upload, FLP phase, cheater search, the three modes |
| `Model/Tests.lean`   | `tests/*.rs`, `src/vidpf.rs:476-542` | the repository's tests, parametrised |
| `Model/Main.lean`    | `src/bin/driver.rs` | `generate_reports`, `main` with all random draws as arguments |
| `Model/System.lean`  | `src/bin/driver.rs`, `src/rpc.rs` | the driver as a process that sends requests; two servers and any number of drivers taking steps in any order |
| `Model/Wire.lean`    | `src/rpc.rs`, derived serialisation of all message types | bincode encodings, calls over a connection with a frame limit, printed sizes |
| `Model/Libprio.lean` | `src/lib.rs:75-131` and libprio's `Histogram` | the histogram circuit, wire polynomials, prove, query, decide |
| `Model/Prio3.lean`   | `src/bin/driver.rs:196-207`, `src/bin/server.rs:227-318` and libprio's `Prio3` | sharding, encodings, preparation, unsharding for plain metrics |
| `Model/Float.lean`   | `src/bin/driver.rs:394-396` | IEEE double rounding, product and conversion for the threshold |
| `Model/Configs.lean` | `src/configs/*.toml`, `artifact/configs/*/*.toml` | the configuration files |
| `Model/Config.lean`  | `src/config.rs`, both `main`s | command line, number parsing, start of servers and driver |

Specifications are apart from the model in `Spec/`; helper lemmas in `Lemmas/`; the property theorems, each with an
`example` that meets its hypotheses, in `Props/`. A specification never uses a model function of the layer it
specifies: e.g. `Spec.valueAt`/`Spec.proofAt` evaluate a key directly bit by bit, `Spec.heavyHitters` filters all
strings by multiplicity, `Spec.ksBlock`-style closed forms describe the keystream.

## 2. Conventions

* `&mut` becomes a returned value. A panic is `Except.error` with a constructor naming its kind (`index`,
  `assertion`, `debugAssertion`, `unwrap`, `explicit`, `zeroChunk`, `divZero`, `overflow`, `poisoned`, `outOfFuel`).
  Nothing is totalised away: indexing, `unwrap`, `chunks(0)`, arithmetic underflow, `Vec::remove` all have their
  panic value. Loops without an evident bound run on fuel and running out is an error that theorems exclude.
* Debug and release builds differ by an explicit `Build` argument wherever a `debug_assert!` can be observed.
* `rayon` maps are order preserving and side-effect free in this code: `mapE`.
* Randomness (`thread_rng`, `PrgSeed::random`) is an argument, universally quantified.
* A `HashMap` is an association list; where it is iterated, the order is an arbitrary permutation (C46).
* External primitives are fields of `Prims`, so universally quantified: AES-128 under the zero key, BLAKE3,
  SHAKE128-XOF, the FLP `prove`/`query`/`decide` and their lengths, Prio3, `ceil_log2` on floats. Assumptions on
  them (FLP completeness, Prio3 completeness, no collision on the inputs at hand, `ceil_log2` = ⌈log₂⌉ up to the number
  of clients, see C108)
  are explicit hypotheses, each satisfied by a toy instance (`Lemmas/Toy.lean`, `Lemmas/ToySearch.lean`).
* `Field128` is `ZMod 340282366920938462946865773367900766209`, encoded as 16 little-endian bytes.

## 3. Property by property

Status "partial" in `MANIFEST.json` means: the property as stated is *false of the code*, its negation is proved
(`Cnn_false_*`), and where a part holds it is proved too (`Cnn_*_partial` or an exact characterisation).

### VIDPF (`Props/Vidpf`, `Props/Tree`)
* C01, C02 – DPF invariant by induction on the level: on the client's path control bits differ, off it seeds and bits
  coincide; correction seeds keep the proofs equal. For every cipher, hash, seed, string and weight.
* C03 – equivalence: `evalBit` returns iff level < domain size, `eval` iff |idx| ≤ domain size.
* C04, C05, C06, C08 – the cache is an inductive tree with the invariant "every cached node is the direct evaluation";
  a transcript lemma says which bytes are appended. C05, C06, C08 hold for arbitrary keys.
* C07 (false) – a decoder applied to a single key returns alpha.

### PRG and library (`Props/Prg`, `Props/Lib`)
* C09–C11 – the stateful stream refines a closed-form keystream, from every earlier state. C12 (false) – the counter
  increment depends on the architecture, for every counter. C13 – reduction modulo the prime and its fibres. C14 – masking.
* C66 (`Props/PrgMore`, false) – expansion and conversion run the same keystream; on a quarter of the seeds their outputs
  coincide. C67 (false) – `PrgStream` XORs into the buffer and prints the stream; exact for zeroed buffers.
* C15–C19 – inductions over the list helpers, panic conditions as equivalences.

### Server state (`Props/Collect`, `Props/History`, `Props/Level`, `Props/Serve`, `Props/Sim`)
* C20, C24, C25 – exact results and exact panic conditions of prune, keep and final values.
* C21, C22, C23 – induction over arbitrary request histories (any requests, any arguments): stable indices, permanent
  exclusion, frontier nodes = direct evaluations, sorted distinct paths, sums over the included reports.
* C28, C57 – retries repeat the level; late reports make the next crawl panic.
* C37, C38 – the mutex: reset = fresh start unless poisoned; malformed reports poison (C38 false as stated).
* C56 – lock-step simulation of two servers. C60 – driver phases are request histories.

### FLP (`Props/Flp`)
* C39, C40, C41, C55 – derivation of the randomness, exact exclusion, batch independence, share sums.
* C42 (false) – skipped for `data_bits = 1`.

### The proof system itself (`Props/Libprio`)
The theorems elsewhere hold for every FLP with the stated properties. `Model/Libprio` writes out the one that is used and
`Prims.withHistogram` puts it into any choice of the other primitives.
* C81 – made proofs are accepted exactly if the query point is no root of unity and the vector passes the circuit, so the
  completeness hypotheses hold; a whole run with this FLP, with the exceptional query points counted.
* C82 – soundness: roots of a nonzero polynomial of degree at most 2(points−1), and counting over the joint randomness
  (C65_fixed_weight_partial); the driver's tampering is noticed unless one seed is zero.
* C83 – the exchanged verifier has the same distribution for all weights (a bijection on the prover's randomness).
* C90 (`Props/KeyHide`) – the same for the whole Mastic report: a bijection on the other server's value entries, the prover
  randomness and the split of the proof keeps one server's view; the string is visible anyway (C07).
* C81_run, C81_attribute_run – whole runs in both Mastic modes with this proof system.
* C88 (`Props/PlainHh`) – README section 4, plain heavy hitters with one bucket; with more buckets possibly nothing is printed.

### Prio3 (`Props/Prio3`)
`Model/Prio3` builds Prio3 on the proof system; `Prims.withPrio3` puts it into any choice of the other primitives.
* C85 – completeness; discharges what C58, C62 and C64 assume. A query point that is an interpolation point panics the server.
* C86 – soundness for arbitrary bytes; the joint randomness is a hash of the shares, so the counts are over programmed
  outputs of the hash. The servers decide separately and the driver compares only the numbers of rejected reports; a
  report on which the servers disagree needs different seeds, and then a quadratic in the helper's randomness to vanish.
* C87 – the driver's flipped bit, a special case with different seeds.
* C89 (`Props/Prio3Hide`) – neither server learns the bucket: a bijection on the hash outputs it does not know (the programmed
  answers to the other server's seed and to the prover's seed) moves one client's view to another's. Statistical statement
  about ideal answers, no reduction.

### The crawl and the whole run (`Props/Merkle`, `Props/Search`, `Props/Final`, `Props/Whh`)
* C26, C27 – end to end against "filter all strings of length d by multiplicity". C27 is false as stated (index panic).
* C61 (`Props/Run`) – a whole run on arbitrary well-formed reports, panics included, equals `Spec.wholeRun`, a machine over
  report lists and prefixes only. Assumed: no truncated BLAKE3 collision in the states whose digests differ, and the meaning
  of `ceil_log2` up to the number of clients (C108). Corollaries: independence of builds, exactness when all FLP-passing cheaters differ at once.
* C62 (`Props/Main`) – the whole program: for every outcome of the random draws, what `main` prints in the three modes,
  with the simulated misbehaviour. Assumed: FLP/Prio3 completeness, tampered proofs rejected.
* C63 (`Props/AbmRun`) – whole attribute-based-metrics runs on arbitrary well-formed reports: a debug server panics on a
  report failing both checks and otherwise excludes who fails one; a release server prints the failures and counts
  everybody. Assumed for the version on tampered proofs: all verifiers have one length (`Spec.VerifierLen`).
* C64 (`Props/PmRun`) – whole plain-metrics runs on arbitrary reports: equality with `Spec.pmBatchOut` batch by batch, panics
  included; an unpreparable report panics the run; cheaters rejected by both servers leave the counts exact.
* C68 (`Props/Startup`, false) – exact start conditions of both programs, and a whole system from its command lines to the
  printed heavy hitters. C69 (`Props/Threshold`, false) – the floating-point threshold is the product rounded down or up.
* C92 (`Props/Script`) – the requests of a run as a function of the strings (`Spec.whhScript`), so not of the weights; two runs
  have the same requests exactly if the rejected clients and the heavy prefixes of every length agree. `Spec.Talk` is the
  conversation between the driver's process and two servers.
* C93 (`Props/RunHide`) – C90 and C92 put together over a whole run: for any two assignments of weights a bijection of the coins
  one server does not know (`Spec.RunCoins`) makes that server receive the same requests from the first to the last, while
  each run outputs the correct result for its weights. `Spec.FreshRun` excludes collisions of cipher inputs.
* C94 (`Props/PmHide`) – the same for plain metrics from C89 and C85: the requests include the preparation shares of the other
  server, which depend on the buckets. `Spec.FreshSeeds` excludes equal seeds of two reports.
* C95 (`Props/Collude`) – a server that also sees the collector's messages: `Spec.Hears` adds the answers of both servers to the
  conversation. If two assignments of weights give the same totals at all evaluated prefixes, a bijection of the unknown
  coins makes everything equal; conversely the answers determine these totals. They include totals at light prefixes,
  which the result does not show (`C95_light`). `Lemmas/Replies` computes all answers of a run, `Lemmas/World` relates two runs.
* C96 (`Props/PmCollude`) – the same for plain metrics: a server and the collector together learn the printed histograms of the
  batches and nothing more. `Lemmas/PmReplies` computes all answers of a plain-metrics run.
* C97 (`Props/AbmCollude`) – the same for attribute-based metrics: a server and the collector together learn the printed histograms
  and nothing more; weights of clients outside the attributes stay hidden. `Lemmas/AbmReplies` computes all answers of a run.
* C98 (`Props/Spy`, false) – a collector that asks what it likes: it leaves out clients with `apply_flp_results`, starts new trees and
  crawls with threshold one, and learns everybody's string and weight. `C98_printed_partial` for what the driver prints.
* C99 (`Props/Deviate`, false) – a server that answers as it likes (`Spec.against`): it raises its counters and spoils verifier shares,
  and so makes the driver carry out the run for the clients it wants with threshold one. `C99_plain_partial` for plain metrics, where
  a server that lies gets no further requests. `C99_abm_partial` (`Props/DeviateAbm`) and `C99_plain_*_same_partial`
  (`Props/DeviatePm`) for the two modes without a threshold: the requests of a lying server do not depend on the weights or buckets.
  `C99_whh_partial` (`Props/DeviateWhh`): in weighted heavy hitters they do not depend on the weights either. `Lemmas/Peer` tracks the
  honest server in the two runs: what it answers depends on the lying server's requests and on sheets that differ by weight only.
* C100 (`Props/Effort`) – the number of requests of a run, for all answers of both servers (`Spec.dialogue`); the bound is reached.
* C101 (`Props/Frontier`, false) – how many prefixes the servers keep: at most `N / max 1 T` for honest clients, all `2^d` with the
  report of C73. The requests of a run are few (C100); it is their sizes that one client can blow up.
* C102 (`Props/Recite`, false) – a server that answers as it likes makes the driver show what it wants: any non-empty set of strings
  with any values in heavy hitters, the honest tables plus any others in the metrics modes. `Lemmas/Recite` is a server that recites
  prepared answers, `Spec/Inflate` one that adds to its aggregates; `Lemmas/Face` is the driver against one server that runs the code and
  one that answers anything, from which the shape of the result follows (`C102_strings_partial`).
* C103 (`Props/Tap`, false) – the connections are not encrypted: fixed readers get the strings from one connection and the weights from
  both, in every run (`Spec/Tap`; a message is the encoded request or answer, without tarpc's header). One connection in both directions
  does not show the weights, which follows from C95 – C97.
* C104 (`Props/Settings`, false) – servers started with other settings: whatever ends normally with the same server numbers is the
  same run, except for the builds in attribute-based metrics; a debug and a release server together, or exchanged numbers, give
  wrong results without any sign of it.
* C105 (`Props/Modes`) – runs of the three modes over the same clients compared with each other, from C62 and C85.
* C107 (`Props/Repeat`) – which requests may arrive twice, for all reachable states.
* C106 (`Props/Lengths`) – the length of every message of a run in the three modes, and what the lengths alone reveal.
* C108 (`Props/Log2`, false) – the number of leaves computed in single precision (`Model/Log2`, the platform's `log2f` a parameter):
  right up to 2^20 clients, too small just above 2^21; the clients it misses are not checked.
* C109 (`Props/Decode`, last clause false) – servers that receive arbitrary bytes (`Model/Frame`): frames amount to typed requests, so
  the theorems on reachable states apply; the canonical encoding is the only shortest; stored reports are not larger than the frames.
* C110 (`Props/Tests`) – the repository's own tests (`Model/Tests`) with parameters in place of the literals: what they compute for all
  inputs and all random choices, and that the literal collection test never fails.
* C111 (`Props/Certain`) – from C62 by the pigeonhole principle: the numbers of clients with which no strings make a run panic, for
  arbitrary configurations and for the files in the repository (`Model/Configs`).
* C112 (`Props/Frames`, `Props/Tampered`, `Props/Typed`) – runs over connections with a frame limit: the lengths of C106 decide, and for the files in `src/configs`
  the numbers of clients on both sides of the boundary. By induction over the conversation of C106: a message whose numbers are
  `usize`s and whose encoding is shorter than 2^64 bytes is read back (C77). `Props/Tampered`: with tampering clients.
  For every mode and any clients, a run ends over the network exactly if it ends on values and the messages of its conversation
  fit (`C112_iff`; `Spec.runTyped` says that the numbers and lengths in the messages are below 2^64, as they are in Rust).
* C113 (`Props/Batches`, `Props/Tampered`) – whether smaller batches repair a run that crashes because of message sizes: yes for both kinds of
  metrics, for any number of clients; for weighted heavy hitters only up to 8.4 million clients. Batches that do not fit panic, e.g. the Prio
  files of figure 6 with 128 and 1024 attributes from 2288 and 816 clients on.
* C114 (`Model/Left`, `Spec/Left`, `Props/Left`) – the servers after a run that the frame limit has crashed: both mutexes are usable and every
  later run is as on new servers, so the README's smaller batches need no restart. A run over the network depends on the servers only
  through their `reset` (`main_from`). Assumed: what the crashed driver has sent is handled before the next run or never (else C76).
* C71 (`Props/Consistency`) – consequences of C62 relating pairs of runs: what the results depend on, monotonicity in the threshold
  and in the clients, totals.
* C29 – Merkle roots separate, with collisions only excluded on the hashed inputs at hand.
* C30, C31, C32, C33 – the doubling search: the suspects at split 2^k are exactly the chunks in which the digest
  lists differ. C30 exact with nobody excluded before; C31 and C32 false after exclusions, with exact characterisations;
  C33 a bound for arbitrary, also adversarial, servers.
* C36 (false) – last-level proofs are not compared when a batch ends beyond the included clients.

### What the checks miss (`Props/Attack`, `Props/Weights`)
* C34, C35, C59 (false) – relational proofs ("twin" reports): two runs differing in a counter entry below level 1, in
  the last correction word, or by multiples of 2^64 in the weights are step-by-step equal in everything checked.

* C65 (`Props/Forge`, false) – the joint randomness does not depend on the weight, so a client can pick a weight that
  passes the histogram circuit afterwards; whole runs sum such weights. The circuit itself is written out in
  `Spec/Forge`; the bound for weights fixed in advance uses that the modulus is prime (`Lemmas/Prime`).
* C91 (`Props/Copies`, false) – a client sends the servers different copies of the joint-randomness parts: then the two halves
  of the verification equation have different coefficients, and splitting the gadget polynomial suitably makes any vector
  pass at every query point.
* C70 (`Props/Shares`, false) – the helper's proof share is biased since `Field128::from(u128)` is; the number of draws per share
  is counted exactly.
* `Props/Bound` – what does hold of C07, C34, C35, C52 (`_partial` theorems).

* C72 (`Props/Split`, false) – correction words of the two halves are never compared: a client moves any count from the
  other half's one-bit prefix to its own string. `C72_one_hot_partial`: what the one-hot proofs bind if they are shared.
* C73 (`Props/Flat`, false) – two equal root seeds make both servers' seeds equal at every node, the control bits
  opposite and all proofs equal; one report then counts for every string. `C73_bound_partial` for the driver's clients.
* C74 (`Props/Move`, false) – the same gap in attribute-based metrics: any vector moves from the sibling leaving the
  client's string at bit l to the client's prefixes. Path checks notice it only through attributes below other nodes of that level.
  `C74_total_partial`: totals over a whole level are bound.

### Metrics (`Props/Metrics`) and driver (`Props/Driver`)
* C43–C49, C58 – attribute-based and plain metrics. C43, C44, C45 are false in one build or for several batches.
* C50, C51 – batching and upload. C52, C53, C54 (false) – tampering no-op, printing condition, attribute sampling.

### The whole system (`Props/System`)
`Model/Driver` computes a run as a function of both server states; `Model/System` has the driver as a process (`Prog`)
that only sees answers, and a transition system: sending, handling of one call under the lock, receiving both answers,
failing when one call failed, handling or losing the call a crashed driver left behind.
* C75 – every execution in which one driver takes part shows the result of the sequential `driverMain`, or panics if that
  panics; none goes on forever, and none is stuck before the driver has returned or panicked. All theorems about
  `driverMain` (C62, C69–C73, …) thereby hold for every order of steps.
* C76 (false) – the servers hold one session for all drivers: a driver can show the result of another
  (`C76_false_mixed_up`), uploads can be ordered differently at the two servers (`C76_false_crossed`), and a panic ends
  all sessions (`C76_false_poisoned`), which an honest population without heavy prefixes brings about
  (`C76_false_light_population`). `C76_sequential_partial`: sessions one after the other do not disturb each other.

### Messages (`Props/Wire`)
* C77 – every message is read back from its encoding; a run over the wire shows what the run on values shows if all
  messages fit into frames.
* C78 – the sizes of reports and the printed sizes are a function of bits, buckets and proof length.
* C84 (`Props/Small`) – the runs C62 leaves out: one bit (everybody counted, see item 9), no bits, `data_bits` unset,
  nobody left after the FLP verification.
* C80 (false, `Props/Replay`) – a report sent k times is counted k times.
* C79 (false) – batch sizes exist for which no run succeeds, since the frame limit is left at its default.

## 4. Disagreements between code and expected behaviour

Each is a theorem named `Cnn_false_*` (or noted); line numbers are in the Rust source.

1. Control-bit expansion is constant, so each correction word shows a bit of alpha (C07).
2. The AES counter increment differs between x86_64 and other architectures (C12).
3. An empty frontier before the last level panics instead of giving an empty answer; it happens exactly when no
   prefix of length d−2 reaches max(1, threshold) (C27).
4. Positions among the *included* clients are used as indices into the *full* report list when excluding cheaters:
   after an earlier exclusion an honest client is excluded and the cheater stays (C31); the loop then stops on
   `is_last` although the roots still differ.
5. `chunks(0)` and `chunks_list[0]` panics once exclusions shrank the digest list (C32).
6. Counters are unchecked below the first level (C34); leaf values are unchecked (C35); weights are only
   bound through an XOR of low 64 bits (C59).
7. `get_proofs` returns nothing when the range exceeds the shortened list, so the last comparison is vacuous (C36).
8. Any panic under the lock poisons the server for good; malformed reports do it (C37, C38).
9. FLP verification is skipped for one-bit strings (C42; a whole run: C84).
10. The removal of rejected attribute reports is inside `debug_assert!` (C43); rejecting twice panics in debug
    builds (C44); results are cumulative over batches (C45).
11. "Malicious key" tampering changes a clone (C52); printing tests bucket `input_len-1` (C53); attribute sampling
    is off by one (C54).
12. The effective threshold is max(1, ⌊f·n⌋), since `final_values` drops zero counters and pruning keeps counters ≥ 0.
13. The FLP's joint randomness is derived from seeds, ids and nonce, not from the weight (C65).
14. `expand_dir` and `convert` start from counters differing only in two masked bits: no domain separation (C66).
15. `PrgStream::fill_bytes` XORs into the buffer, asserts it zero in debug builds, and prints its output (C67).
16. The short option `s` is declared twice (`.short("s0")`, clap 2 takes the first character): clap's debug assertion aborts
    both programs in debug builds; in release builds `-s` is server 0 only. Servers ignore both address options (C68).
17. The threshold is truncated, so strings below the configured fraction are reported (C69).
18. Proof shares are drawn with the biased `Field128::from(u128)`, unlike `prove_rand` (C70).
19. Nothing compares the correction words the two servers received (C72, C74).
20. Nothing rejects equal root seeds, for which one report counts for every string (C73, C101).
21. Requests carry no session: a `reset` of another driver replaces the reports, and interleaved uploads put shares of
    different clients at the same position (C76).
22. The transport's limit per message is left at its default, so large batch sizes panic (C79).
23. Nonces are never compared, so a repeated report is counted again (C80). The driver relies on it: it samples from
    `zipf_unique_buckets` generated reports with repetition.
24. The copies of the joint-randomness parts sent to the two servers are never compared (C91).
25. `README.md:109-110` allows `--malicious` up to 0.9, the driver's assertion (`src/bin/driver.rs:691`) only below 0.8 (C68).
26. The servers know neither the threshold nor check who asks for exclusions or new trees, so a collector can have every
    client's string and weight (C98). This lies outside the driver's own behaviour; C92 and C95–C97 cover that.
27. One server alone can get rid of the threshold. The driver adds the counters that the servers report and compares with the
    threshold; neither the counters nor the FLP verifier shares are tied to the reports. A server that adds `threshold - 1` to each
    counter and spoils its verifier shares of the clients that it does not want is told every prefix of the wanted clients' strings
    (C99). The digests and final proofs that are compared cover the VIDPF proofs, not the counters.
28. Nothing ties the aggregates to the reports: one server can make the driver show any non-empty result in heavy hitters and add
    anything to the tables of the metrics modes (C102).
29. Driver and servers talk over plain TCP. Whoever reads one connection knows the strings of all clients, whoever reads both knows the
    weights too (C103).
30. The driver does not check with which settings the servers run. A debug server and a release server together add one server's
    tables of the rejected clients to the histograms of attribute-based metrics; exchanged numbers turn them into zeros (C104).
31. The number of leaves of the Merkle tree is computed in `f32` (`src/collect.rs:485`). Just above 2^21 included clients (and above
    every larger power of two) it is half of what is needed, only the first half of the digests is compared, and cheaters among the
    rest are counted (C108). An integer computation (`next_power_of_two`) would not have the problem.
32. A field element is read from a byte string whose bytes behind the 16th are ignored, so uploads have many encodings (C109). Nothing
    in the code compares encodings, so this has no consequence today.
33. With the weighted-heavy-hitters files of `artifact/configs` the run can panic for every number of clients from 200 on, if the
    strings are spread out; with `src/configs/weighted-heavy-hitters.toml` it cannot (C111, compare C62).
34. `query_flp_batch_size = 100000` in all files of `src/configs` is more than a frame can hold: no run with as many clients as a batch
    has room for can end (C112). The README mentions the symptom.
35. `artifact/README.md:324-336` says that crashes because of message sizes "can be simply resolved by reducing the batch sizes". For
    weighted heavy hitters this is not so with 8388604 clients or more, because `apply_flp_results` sends the verdicts about all clients at
    once (C113); and the values it recommends, 1000 and 100000, are those with which C112 shows the panic from 81443 clients on.

Items 13 and 24 are known to the authors: the comment at `src/collect.rs:283-290` says that the joint randomness "does not match the
spec and is not secure"; C65 and C91 say exactly how and what remains true.

## 5. Trusted base

* Lean's kernel and the statements in `Spec/` and `Props/`. `#print axioms` of every property theorem gives a
  subset of `propext`, `Classical.choice`, `Quot.sound`. No own axioms, `sorry`, `native_decide` or `bv_decide`.
* The reading of the Rust source into `Model/` (by hand, function by function).

Modelled exactly: everything listed in section 1, including panics, both builds, request interleavings per
server, and both servers' states in a driver run.

Modelled with a simplification (said in the definition's comment):
* `usize`/`u64` arithmetic on client counts, batch sizes and the suspects' indices (`i * 2`, `src/collect.rs`) in `Nat`: no
  overflow below 2^64; a suspect from 2^63 on is never sent by the driver, and a release server would wrap there;
* `thread_rng` and floats: random choices and `ceil_log2` are inputs (`Model/Log2` is the
  latter in single precision, `log2f` being an input); `Config.threshold` is the integer threshold, derived from the configured number in `Model/Config`;
* field element sampling from the stream uses 16 bytes per element as the code does; rejection never happens there;
* the `HashSet` of attributes: the distinct strings in any order.

Assumed about external code: the completeness hypotheses `FlpCompleteAt`, `CircuitCompleteAt` (for the validity
circuit of libprio 0.15.3's `Histogram`, as known from its source, which is not available here: `r1·Σ r0^(i+1)·xᵢ(xᵢ−1) + r1²·(Σ xᵢ − 1)`), and Prio3's;
each is an explicit hypothesis of the theorems that need it. Prio3's are proved in `Props/Prio3` from its definition (VDAF draft 08,
section 7.2), with arbitrary hash outputs; the server's state keeps the expanded measurement share where libprio keeps a seed. For the FLP the hypotheses are proved in `Props/Libprio` from
the definition of the proof system (VDAF draft 08, section 7.3, and libprio 0.15.3: `ParallelSum<Mul>`, wire polynomials
interpolated at the powers of a root of unity, gadget polynomial in coefficients), which is transcribed from documentation;
the proof length that follows is the one quoted in `artifact/README.md`. FFTs are replaced by interpolation formulas, and
the limit on FFT sizes is not modelled. About clap 2 (in `Model/Config`): a short name is its first
character, a flag means the first argument declared with it, unknown, repeated and missing options end the program, and
clap's own debug assertions reject two arguments with one short name.

About serde, bincode 1.3, libprio's serialisation of field elements and tarpc (in `Model/Wire`): the formats and the
default limit of 8 MiB per frame, as documented; the sizes that follow are those quoted in `artifact/README.md:170-173`, and
the effect of the limit is described in `README.md:179-192`. The bytes tarpc adds to a message are a parameter.

Not modelled: TCP, timeouts and deadlines (a call is answered or fails, in any order; answers are
not delayed beyond the deadline); memory limits; TOML parsing and `f32` parsing (arbitrary functions); the internals of BLAKE3/SHAKE/AES; cryptographic hardness (only "no collision on these inputs" hypotheses); `MasticSum::new_sum` (unused); console output other than results.

## 6. Testing the theorems

`seeded/LOG.jsonl` lists wrong programs: an edit to one model definition, the claim it breaks, the theorems
whose proofs then fail, and the theorems tightened as a consequence. Lines with `"outcome": "inconclusive"` are
runs that did not finish (a module ran out of time or memory); they are no evidence for the theorems. S15 was not
caught for C55: the theorems spoke of the sharing function and not of the messages. `C55_sent` and `C55_picked` were
added for this reason.
