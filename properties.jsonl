{"id": "C01", "title": "VIDPF shares reconstruct the weighted point function", "statement": "For keys (k0,k1) produced by VidpfKey::gen(alpha, beta), evaluating both keys on any non-empty bit string idx no longer than alpha gives, at every prefix of idx (the intermediate outputs and the last one), shares that add up to beta followed by the counter 1 when that prefix is a prefix of alpha, and to all zeros otherwise.", "quantifier": "every alpha, every beta (any length), every pair of root seeds, every block cipher and hash function, every idx with 1 <= |idx| <= |alpha|", "why_tests_cant": "A test samples one alpha and a few idx; the claim is over all strings, weights, seeds and depths and rests on an inductive invariant over levels.", "anchors": ["src/vidpf.rs: VidpfKey::gen, gen_cor_word, VidpfKey::eval, VidpfKey::eval_bit"]}
{"id": "C02", "title": "Honest VIDPF proofs agree", "statement": "For keys produced by gen, both servers end every evaluation with the same VIDPF proof when they start from the same proof value, whatever index is evaluated (on or off the client's path).", "quantifier": "every alpha, beta, seeds, hash function, start proof and idx with 1 <= |idx| <= |alpha|", "why_tests_cant": "The proof chain is hash based; equality for all paths needs the per-level correction-seed argument, not samples.", "anchors": ["src/vidpf.rs: VidpfKey::gen (cs), VidpfKey::eval_bit, VidpfKey::eval"]}
{"id": "C03", "title": "Evaluation is total exactly on the key's domain", "statement": "Evaluating a generated key one bit deeper succeeds at every level below domain_size() and panics at every level at or beyond it; eval on a non-empty idx returns normally iff |idx| <= domain_size().", "quantifier": "every generated key, every evaluation state depth, direction and index", "why_tests_cant": "Out-of-range behaviour depends on control bits reached at run time; all depths and seeds must be covered.", "anchors": ["src/vidpf.rs: VidpfKey::eval_bit, VidpfKey::eval, VidpfKey::domain_size"]}
{"id": "C04", "title": "Prefix-tree evaluation of honest keys reconstructs values, weight and proof", "statement": "For keys produced by gen and any list of non-empty paths no longer than alpha (any order, repeats and nested prefixes allowed), eval_tree on the two keys yields per-path value shares adding to beta||1 on prefixes of alpha and 0 elsewhere, beta shares adding to beta, and identical evaluation-proof hasher inputs.", "quantifier": "every alpha (non-empty), beta, seeds, hash, every list of non-empty paths of length <= |alpha|", "why_tests_cant": "Caching makes the traversal order and sharing matter; a test fixes one attribute list.", "anchors": ["src/vidpf.rs: VidpfKey::eval_tree, VidpfEvalNode::traverse, VidpfEvalNode::next"]}
{"id": "C05", "title": "The evaluation cache is transparent", "statement": "For any key at all (honest or malformed), whenever eval_tree returns, the value share it reports for each path equals the share obtained by evaluating that path directly bit by bit with a fresh state, regardless of which other paths are evaluated, in what order, or how often.", "quantifier": "every key, every list of paths on which eval_tree returns", "why_tests_cant": "Needs an invariant over the mutable prefix tree for every traversal order.", "anchors": ["src/vidpf.rs: VidpfEvalNode::traverse, VidpfKey::eval_tree, VidpfKey::eval_bit"]}
{"id": "C06", "title": "Accepted evaluation proofs imply a consistent prefix tree", "statement": "For arbitrary (possibly malicious) key pairs with key indices 0 and 1, if the two servers' eval_tree proof digests agree and the hash has no collision on the two inputs, then the reconstructed counters at level 1 add to 1, every strict non-empty prefix of a queried path carries a reconstructed value equal to the sum of its two children (all weight components and the counter), and the two servers' one-hot proofs agree at every queried path.", "quantifier": "every pair of keys (no honesty assumed), every list of paths, every hash and cipher", "why_tests_cant": "A soundness statement quantifies over all adversarial keys; no test suite enumerates them.", "anchors": ["src/vidpf.rs: VidpfEvalNode::traverse (path check), VidpfKey::eval_tree (counter)"]}
{"id": "C07", "title": "A single report share hides the client's string", "statement": "Nothing in one server's VIDPF key determines the client's string alpha. (FALSE of this code: the control-bit expansion is constant, so each correction word carries (not alpha_i, alpha_i) in the clear and alpha can be read off either key.)", "quantifier": "every alpha, beta, seeds, cipher, either server", "why_tests_cant": "Secrecy is a statement about all inputs; the leak is invisible to functional tests because reconstruction stays correct.", "anchors": ["src/prg.rs: PrgSeed::expand_dir", "src/vidpf.rs: gen_cor_word, CorWord::bits"]}
{"id": "C08", "title": "A consistently summed leaf layer equals the client's verified weight", "statement": "For arbitrary key pairs, if the eval_tree digests agree (no collision) on a path list that covers all strings of some length d, then the reconstructed values over all those strings add up to the reconstructed beta and the counters add up to 1: an accepted report contributes total count exactly 1.", "quantifier": "every key pair, every depth d >= 1, every path list covering all length-d strings", "why_tests_cant": "Global conservation over exponentially many leaves for adversarial keys.", "anchors": ["src/vidpf.rs: VidpfKey::eval_tree, VidpfEvalNode::traverse"]}
{"id": "C09", "title": "Seed expansion is history independent and direction consistent", "statement": "expand_dir and convert return the same result whatever the thread's PRG stream was used for before, and the seed expand_dir produces for one requested direction equals the seed expand() produces for that direction.", "quantifier": "every seed, every prior stream state, every direction flags, every output length", "why_tests_cant": "The stream is shared mutable thread-local state; only an argument over all prior states shows no leakage between calls.", "anchors": ["src/prg.rs: PrgSeed::expand_dir, PrgSeed::expand, PrgSeed::convert, FixedKeyPrgStream::{set_key,skip_block,refill,fill_bytes}"]}
{"id": "C10", "title": "The PRG byte stream does not depend on request sizes", "statement": "After set_key, any sequence of fill_bytes requests (any sizes, mixing the one-block and eight-block refill) returns consecutive pieces of one fixed keystream: block i is AES_0(ctr_i) xor ctr_i.", "quantifier": "every key, every sequence of request sizes (release build)", "why_tests_cant": "All request-size sequences; the buffer and block boundaries interact.", "anchors": ["src/prg.rs: FixedKeyPrgStream::fill_bytes, refill, refill8"]}
{"id": "C11", "title": "No debug assertion of the PRG stream fires on the library's own request patterns", "statement": "In a debug build, expand_dir and convert never trip the block-boundary assertions, for every seed and length; but a request of more than 64 bytes that drains the eight-block buffer followed by a short request does trip the refill assertion.", "quantifier": "every seed, direction flags and word count; every stream state for the negative part", "why_tests_cant": "Assertion freedom over all stream states.", "anchors": ["src/prg.rs: FixedKeyPrgStream::refill, skip_block, fill_bytes"]}
{"id": "C12", "title": "The PRG is platform independent", "statement": "A key generated on one CPU architecture evaluates identically on another. (FALSE: the counter increment touches bytes 8..16 on x86_64 and bytes 0..8 elsewhere, so the second counter value differs for every seed.)", "quantifier": "every counter value", "why_tests_cant": "The test suite runs on one architecture at a time.", "anchors": ["src/prg.rs: FixedKeyPrgStream::inc_be"]}
{"id": "C13", "title": "Field elements are sampled with at most two preimages", "statement": "Converting 16 stream bytes into a field element is reduction of the little-endian 128-bit integer modulo the field prime; every field element is hit, and each is hit by one or two 128-bit inputs, exactly the elements below 2^128 - p being hit twice.", "quantifier": "every 128-bit input and every field element", "why_tests_cant": "A statistical claim over 2^128 inputs.", "anchors": ["src/lib.rs: impl FromRng for Field128"]}
{"id": "C14", "title": "Seeds differing only in the two masked bits expand identically", "statement": "expand_dir ignores the two lowest bits of a seed's first byte: flipping them changes neither child seed nor control bits, hence cannot be detected by VIDPF evaluation of a root seed; all other bits reach the cipher input.", "quantifier": "every seed, every direction flags", "why_tests_cant": "Over all seeds.", "anchors": ["src/prg.rs: PrgSeed::expand_dir", "src/vidpf.rs: VidpfKey::eval_bit"]}
{"id": "C15", "title": "String/bit conversion round-trips exactly for ASCII", "statement": "bits_to_string(string_to_bits(s)) returns s for every ASCII string and panics for every string containing a non-ASCII character; bits_to_string panics iff the length is not a multiple of 8 or some byte is >= 128.", "quantifier": "every string / every bit vector", "why_tests_cant": "The unit test uses one ASCII string.", "anchors": ["src/lib.rs: string_to_bits, bits_to_u8, bits_to_string, u32_to_bits"]}
{"id": "C16", "title": "u32_to_bits is the little-endian binary expansion", "statement": "u32_to_bits(n, x) panics iff n > 32, otherwise has length n and its i-th bit is bit i of x; it is injective on values below 2^n.", "quantifier": "every n and every 32-bit x", "why_tests_cant": "2^32 values times 33 widths.", "anchors": ["src/lib.rs: u32_to_bits"]}
{"id": "C17", "title": "Path strings identify paths", "statement": "bits_to_bitstring is length preserving and injective, and extending a path appends exactly one character, so the string hashed into the VIDPF proof by the aggregators (built from node paths) is the same as the one hashed by the client and by eval_tree.", "quantifier": "every bit vector", "why_tests_cant": "All paths.", "anchors": ["src/lib.rs: bits_to_bitstring", "src/collect.rs: make_tree_node", "src/vidpf.rs: VidpfKey::gen, VidpfEvalNode::next"]}
{"id": "C18", "title": "Vector share arithmetic truncates to the shorter operand", "statement": "vec_add/vec_sub change exactly the first min(|a|,|b|) entries of the first argument and never its length; vec_sub undoes vec_add; vec_neg is an involution; xor_in_place changes exactly the overlapping prefix and is self-inverse.", "quantifier": "every pair of vectors of any lengths", "why_tests_cant": "All lengths, including mismatched ones.", "anchors": ["src/lib.rs: vec_add, vec_sub, vec_neg, xor_vec, xor_in_place, xor_three_vecs"]}
{"id": "C19", "title": "take removes exactly one element", "statement": "take(vec, i) returns None and leaves the vector unchanged when i is out of range; otherwise returns the i-th element and leaves a vector one shorter holding the other elements (as a multiset), with the last element moved to position i.", "quantifier": "every vector and index", "why_tests_cant": "All vectors and indices.", "anchors": ["src/lib.rs: take"]}
{"id": "C20", "title": "Pruning keeps exactly the marked nodes in order", "statement": "tree_prune(keep) panics iff |keep| differs from the number of frontier nodes; otherwise the frontier becomes the sub-list of nodes whose flag is true, in the same order, and nothing else changes.", "quantifier": "every collection state and keep vector", "why_tests_cant": "Index-shifting removal loops must be right for every mask.", "anchors": ["src/collect.rs: KeyCollection::tree_prune"]}
{"id": "C21", "title": "Exclusion is permanent and reports are never reordered", "statement": "Over any history of RPCs between two resets, the list of reports only grows at its end (so client indices are stable), and a client once excluded is never included again.", "quantifier": "every sequence of RPC requests with any arguments", "why_tests_cant": "All histories, including ill-formed requests.", "anchors": ["src/collect.rs: add_report_share, apply_flp_results, tree_crawl", "src/bin/server.rs: Collector for CollectorServer"]}
{"id": "C22", "title": "Frontier nodes always hold exact per-client evaluations", "statement": "Over any history of RPCs, every frontier (and saved previous frontier) node has, for each report present at tree_init, exactly the evaluation state and value share of that report's key at the node's path; all frontier paths have one common length, are pairwise distinct, and appear in lexicographic order.", "quantifier": "every sequence of RPC requests with any arguments, every set of keys", "why_tests_cant": "Invariant over unbounded histories of crawl, retry and prune.", "anchors": ["src/collect.rs: tree_init, make_tree_node, tree_crawl, tree_crawl_last, tree_prune"]}
{"id": "C23", "title": "Aggregated node values are the sum over included clients", "statement": "For each child the crawl reports, the node value is the sum of the value shares of exactly the reports currently marked included; hence the two servers' values add to the sum over included clients of their reconstructed values.", "quantifier": "every set of reports (honest or not), every inclusion marking", "why_tests_cant": "All batches and markings.", "anchors": ["src/collect.rs: make_tree_node, tree_crawl, tree_crawl_last"]}
{"id": "C24", "title": "Threshold decision", "statement": "keep_values marks a node alive iff the reconstructed counter is at least the threshold, for every pair of shares whose reconstructed counter is below 2^64; for counters at or above 2^64 only the low 64 bits are compared.", "quantifier": "every pair of shares, every threshold", "why_tests_cant": "All share splittings of all counters.", "anchors": ["src/collect.rs: KeyCollection::keep_values"]}
{"id": "C25", "title": "Final reconstruction", "statement": "final_values panics iff the two result lists differ in length or in some path; otherwise it returns, in order, exactly the paths whose reconstructed counter is non-zero, each with the componentwise sum of the two shares.", "quantifier": "every pair of result lists", "why_tests_cant": "All share vectors.", "anchors": ["src/collect.rs: KeyCollection::final_values, final_shares"]}
{"id": "C26", "title": "Honest weighted heavy hitters are exact", "statement": "When all clients are honest and at least one string reaches the threshold, the driver's weighted-heavy-hitters run completes without panic, excludes no client, and its reconstructed result list is exactly the strings held by at least `threshold` clients, in lexicographic order, each with the per-bucket histogram of those clients' weights and their number.", "quantifier": "every number of clients, strings of every common length >= 2, weights, seeds, nonces, batch sizes, thresholds", "why_tests_cant": "End-to-end functional correctness over all populations; tests fix ten strings.", "anchors": ["src/bin/driver.rs: run_flp_queries, run_level, run_level_last, main", "src/collect.rs: KeyCollection"]}
{"id": "C27", "title": "A population without heavy prefixes yields an empty answer", "statement": "If no string reaches the threshold the run reports no heavy hitters. (FALSE: when pruning empties the frontier before the last level, the next crawl indexes an empty frontier and panics.)", "quantifier": "every honest population and threshold", "why_tests_cant": "Depends on the relation of all prefixes' counts to the threshold.", "anchors": ["src/collect.rs: tree_crawl (self.frontier[0])", "src/bin/driver.rs: run_level"]}
{"id": "C28", "title": "Retrying a crawl repeats the same level", "statement": "Calling tree_crawl again with a non-empty suspect list (not the final retry) recomputes the same level: same child nodes, same values, same per-client check digests as the first crawl of that level.", "quantifier": "every collection state, every suspect list and split", "why_tests_cant": "All states and suspect lists.", "anchors": ["src/collect.rs: tree_crawl (prev_frontier)"]}
{"id": "C29", "title": "Merkle roots separate different digest lists", "statement": "Two digest lists of equal length have the same Merkle root only if they are equal or two distinct inputs hashed along the way collide.", "quantifier": "every pair of digest lists of equal length, every hash", "why_tests_cant": "All list lengths (odd nodes are promoted) and contents.", "anchors": ["src/collect.rs: HashAlg, tree_crawl (MerkleTree::from_leaves)"]}
{"id": "C30", "title": "Cheating clients are located and excluded exactly", "statement": "If at some level the two servers' check digests differ for some included clients and agree for at least one, run_level ends with exactly the differing clients excluded and nobody else. (Holds when no client was excluded before; FALSE in general, see C31.)", "quantifier": "every number of clients, every set of differing clients (absent hash collisions)", "why_tests_cant": "Binary search over chunked Merkle trees for all sizes and subsets.", "anchors": ["src/bin/driver.rs: run_level", "src/collect.rs: tree_crawl"]}
{"id": "C31", "title": "Locating cheaters is correct after earlier exclusions", "statement": "The previous property also holds when some clients were already excluded. (FALSE: suspect positions index the included clients' digest list but are applied to the full report list, so an honest client can be excluded while the cheater stays.)", "quantifier": "every prior exclusion pattern", "why_tests_cant": "Needs exclusions to have happened earlier in the same run.", "anchors": ["src/collect.rs: tree_crawl (report_shares[malicious_client].0 = false, combined_hashes)", "src/bin/driver.rs: run_level"]}
{"id": "C32", "title": "The cheater search never crashes the servers", "statement": "tree_crawl never panics while the driver doubles the split. (FALSE: once exclusions shrink the digest list below the split, the chunk size becomes zero and chunks(0) panics; with no included client left, chunks_list[0] panics.)", "quantifier": "every number of clients and exclusion pattern", "why_tests_cant": "Rare size combinations.", "anchors": ["src/collect.rs: tree_crawl (chunk_sz, chunks_list)", "src/bin/driver.rs: run_level"]}
{"id": "C33", "title": "The cheater search terminates", "statement": "For every behaviour of the two servers, run_level's loop issues at most ceil(log2(n)) + 2 crawl requests per server.", "quantifier": "every number of clients n >= 1, every server response sequence", "why_tests_cant": "All responses of possibly inconsistent servers.", "anchors": ["src/bin/driver.rs: run_level"]}
{"id": "C34", "title": "Crawl checks bind the counter at every level", "statement": "A report whose counter changes between a prefix and its children is detected by the crawl. (FALSE: below the first level the check covers only the weight components; adding any value to the counter entry of a correction word at a level >= 1 leaves all check digests of both servers unchanged while changing the reconstructed count arbitrarily.)", "quantifier": "every key pair, every level >= 1, every counter offset", "why_tests_cant": "An adversarial existence claim.", "anchors": ["src/collect.rs: tree_crawl (all_y_checks, combined_hashes)"]}
{"id": "C35", "title": "Leaf values are verified", "statement": "A report whose leaf value differs from its verified weight is rejected before its leaf value is aggregated. (FALSE: tree_crawl_last performs no value check; replacing the last correction word changes no proof exchanged.)", "quantifier": "every key pair and replacement word", "why_tests_cant": "Adversarial existence claim.", "anchors": ["src/collect.rs: tree_crawl_last", "src/bin/driver.rs: run_level_last"]}
{"id": "C36", "title": "Final VIDPF proofs are compared for every included client", "statement": "If run_level_last completes, the two servers' last-level proofs agreed for every included client. (Holds when nobody was excluded; FALSE otherwise: the request range exceeds the shortened proof list, get_proofs returns nothing and the comparison is vacuous.)", "quantifier": "every number of clients, exclusion pattern, batch size", "why_tests_cant": "Interaction of batch ranges with exclusions.", "anchors": ["src/collect.rs: get_proofs, tree_crawl_last", "src/bin/driver.rs: run_level_last"]}
{"id": "C37", "title": "Reset restores a fresh server", "statement": "After reset(verify_key, buckets) the server behaves on every later request sequence exactly like a newly started one with that key and bucket count, whatever happened before - unless an earlier request panicked while holding the lock, after which every later request including reset fails.", "quantifier": "every prior history and every later request sequence", "why_tests_cant": "All histories.", "anchors": ["src/bin/server.rs: reset, Mutex lock().unwrap()", "src/collect.rs: KeyCollection::new"]}
{"id": "C38", "title": "Malformed reports cannot take a server down", "statement": "A report share with a too-short key, a wrong-length FLP share or of the wrong variant is rejected without affecting others. (FALSE: each makes a request panic under the lock, which poisons the server permanently.)", "quantifier": "every collection containing such a report", "why_tests_cant": "Adversarial input.", "anchors": ["src/collect.rs: make_tree_node, run_flp_queries, unwrap_vidpf_key", "src/bin/server.rs"]}
{"id": "C39", "title": "Aggregators and client derive the same FLP randomness", "statement": "For an honest report both aggregators compute the same joint randomness as the client used for proving, and (holding the same verify key) the same query randomness as each other.", "quantifier": "every report, verify key, nonce, XOF", "why_tests_cant": "All seeds and nonces.", "anchors": ["src/collect.rs: flp_joint_rand, flp_query_rand", "src/bin/driver.rs: generate_reports"]}
{"id": "C40", "title": "Honest reports pass the FLP check; excluded set is exactly the failing set", "statement": "In run_flp_queries each report's verifier is queried exactly once whatever the batch size, both servers get a keep vector of exactly one entry per report, an honest report is kept, and after the call the excluded clients are exactly those excluded before plus those whose combined verifier did not decide true.", "quantifier": "every number of reports and batch size >= 1", "why_tests_cant": "All batch boundaries.", "anchors": ["src/bin/driver.rs: run_flp_queries", "src/collect.rs: run_flp_queries, apply_flp_results"]}
{"id": "C41", "title": "The first-level weight share is the share of beta", "statement": "For an honest report, the inputs the two servers feed to the FLP query add up to the client's encoded weight.", "quantifier": "every honest report, weight length", "why_tests_cant": "All keys.", "anchors": ["src/collect.rs: run_flp_queries (beta_share)"]}
{"id": "C42", "title": "FLP verification happens in every configuration", "statement": "Every weighted-heavy-hitters run verifies all FLP proofs before aggregating. (FALSE for data_bits = 1: the level loop is empty, so run_flp_queries and the counter check are skipped.)", "quantifier": "every data_bits >= 1", "why_tests_cant": "Boundary configuration.", "anchors": ["src/bin/driver.rs: main (for level in 0..data_bits-1)"]}
{"id": "C43", "title": "Rejected reports are left out of attribute aggregates", "statement": "attribute_based_metrics_result leaves out the reports listed as rejected. (True in debug builds; FALSE in release builds, where the removal sits inside debug_assert! and is compiled out.)", "quantifier": "every server state and rejected list", "why_tests_cant": "Tests run in debug mode, where the side effect happens.", "anchors": ["src/bin/server.rs: attribute_based_metrics_result"]}
{"id": "C44", "title": "Reporting a client as rejected twice is harmless", "statement": "A report failing both checks is rejected once. (FALSE in debug builds: the driver pushes the index twice and the second removal trips the assertion, poisoning the server.)", "quantifier": "every state in which a report fails both checks", "why_tests_cant": "Needs a report failing both checks.", "anchors": ["src/bin/driver.rs: run_attribute_based_metrics", "src/bin/server.rs: attribute_based_metrics_result"]}
{"id": "C45", "title": "Attribute results cover the requested batch only", "statement": "attribute_based_metrics_result(start,end) aggregates exactly the non-rejected reports in [start,end). (FALSE: start and end are ignored and entries of earlier batches are never cleared, so results are cumulative.)", "quantifier": "every sequence of batches", "why_tests_cant": "Needs more clients than one batch.", "anchors": ["src/bin/server.rs: attribute_based_metrics_result", "src/bin/driver.rs: run_attribute_based_metrics", "src/rpc.rs"]}
{"id": "C46", "title": "Attribute aggregation is order independent and repeatable", "statement": "The aggregate does not depend on hash-map iteration order, on the order in which reports were validated, nor on validating a report again; asking for the result again (naming no rejected reports) gives the same answer.", "quantifier": "every iteration order, every validation sequence", "why_tests_cant": "Iteration order is randomised per process.", "anchors": ["src/bin/server.rs: attribute_based_metrics_validate, attribute_based_metrics_result"]}
{"id": "C47", "title": "Honest attribute-based metrics are exact", "statement": "With all reports honest and a single batch, no report is rejected and the reconstructed result for each attribute is the histogram of the weights of exactly the clients holding that attribute.", "quantifier": "every population, attribute list and weights", "why_tests_cant": "End-to-end over all populations.", "anchors": ["src/bin/driver.rs: run_attribute_based_metrics", "src/bin/server.rs: attribute_based_metrics_validate, attribute_based_metrics_result", "src/vidpf.rs: eval_tree"]}
{"id": "C48", "title": "Plain metrics: peers combine prep shares in the same order", "statement": "When the driver relays prep shares, both servers combine the same ordered pair for every report, so they accept the same reports and report the same rejected count.", "quantifier": "every batch, every Prio3 instance", "why_tests_cant": "All batches and rejection patterns.", "anchors": ["src/bin/server.rs: plain_metrics_validate, plain_metrics_result", "src/bin/driver.rs: run_plain_metrics"]}
{"id": "C49", "title": "Plain metrics: result consumes preparation state", "statement": "plain_metrics_result consumes the stored state of each report it processes: a second call on the same range panics, and reports outside the range keep their state; a short peer list leaves the tail unprocessed but counts it as rejected.", "quantifier": "every state, range and peer list", "why_tests_cant": "All histories.", "anchors": ["src/bin/server.rs: plain_metrics_result"]}
{"id": "C50", "title": "Batching partitions the clients", "statement": "Splitting n clients into batches of b >= 1 sends every client exactly once, in order: upload batches total n, and query ranges [start,end) partition [0,n). With b = 0 the upload loop never ends.", "quantifier": "every n and b", "why_tests_cant": "All n and b.", "anchors": ["src/bin/driver.rs: main (left_to_go loop), run_flp_queries, run_level_last, run_attribute_based_metrics"]}
{"id": "C51", "title": "The two servers hold matching shares at every index", "statement": "After the driver's upload phase the i-th share on server 0 and the i-th share on server 1 come from the same client report, on both servers there are exactly num_clients shares, all included.", "quantifier": "every number of clients and batch size >= 1", "why_tests_cant": "All batch interleavings the driver can produce.", "anchors": ["src/bin/driver.rs: main, add_reports, to_shares", "src/bin/server.rs: add_report_shares"]}
{"id": "C52", "title": "Simulated key-tampering produces invalid reports", "statement": "The driver's `malicious key` option corrupts the VIDPF key it sends. (FALSE: the flip is applied to a clone returned by get_root_seed(), so the share sent is unchanged; and even applied in place the flipped bit is masked by expand_dir.)", "quantifier": "every report share", "why_tests_cant": "The driver prints the client as malicious, so logs look right.", "anchors": ["src/bin/driver.rs: add_reports", "src/vidpf.rs: get_root_seed", "src/prg.rs: expand_dir"]}
{"id": "C53", "title": "Every heavy hitter found is printed", "statement": "The driver prints every reconstructed heavy hitter. (FALSE: the print condition tests the last histogram bucket, index input_len-1, instead of the counter at index input_len.)", "quantifier": "every result list", "why_tests_cant": "Depends on the weight distribution of the heavy string.", "anchors": ["src/bin/driver.rs: run_level_last (println condition)"]}
{"id": "C54", "title": "Attribute sampling stays in range", "statement": "The driver selects attributes from the generated reports without panicking. (FALSE: the 1-based Zipf sample indexes the 0-based report list; the largest sample is out of bounds and report 0 is never selected.)", "quantifier": "every sample sequence in 1..=zipf_unique_buckets", "why_tests_cant": "Low-probability sample.", "anchors": ["src/bin/driver.rs: main (AttributeBasedMetrics)"]}
{"id": "C55", "title": "Additive proof sharing", "statement": "The FLP proof shares sent to the two servers add up to the client's proof, and the first share is the chosen randomness (independent of the proof).", "quantifier": "every proof and randomness", "why_tests_cant": "All field vectors.", "anchors": ["src/bin/driver.rs: generate_reports"]}
{"id": "C56", "title": "Servers answer a crawl consistently", "statement": "Given the same request sequence, two servers holding the same number of reports always have frontiers with the same paths in the same order, return value lists of equal length and Merkle index lists that are equal, so the driver's consistency assertions never fire.", "quantifier": "every request sequence, every report contents of matching shape", "why_tests_cant": "All histories.", "anchors": ["src/collect.rs: tree_crawl, tree_crawl_last, final_shares", "src/bin/driver.rs: run_level asserts"]}
{"id": "C57", "title": "Late reports break the running crawl", "statement": "Reports added after tree_init are not silently ignored nor mixed in: the next crawl panics (poisoning the server) if any report was added since tree_init.", "quantifier": "every state and late batch", "why_tests_cant": "History dependent.", "anchors": ["src/collect.rs: add_report_share, make_tree_node"]}
{"id": "C58", "title": "Honest plain metrics are exact per batch", "statement": "With honest clients only, run_plain_metrics completes, rejects nobody, and prints for each batch the number of clients of that batch per bucket (not cumulative, unlike C45).", "quantifier": "every number of clients below the field size, weights, nonces, randomness, batch size >= 1, reachable server states", "why_tests_cant": "Quantifies over all populations, batch splits and prior server histories (leftover preparation state of earlier requests).", "anchors": ["src/bin/driver.rs:614-686", "src/bin/server.rs: plain_metrics_validate, plain_metrics_result"]}
{"id": "C59", "title": "Path checks bind the weights", "statement": "A report that passes the FLP check and whose crawl digests agree on both servers shares, at every prefix of its string, the same weights as at the first level (the weights the FLP verified). (FALSE: the crawl checks XOR only the low 64 bits of the encoded field elements, so weights off by multiples of 2^64 pass.)", "quantifier": "every report, string, level and bucket", "why_tests_cant": "Only special offsets (multiples of 2^64 with the right sign) escape, so random tampering in tests is caught.", "anchors": ["src/collect.rs: tree_crawl value checks, XOR of the low 8 bytes"]}
{"id": "C60", "title": "Driver runs are RPC histories", "statement": "Every completed phase of the driver (reset, upload, tree initialisation, levels, last level, attribute-based and plain metrics) is, for the two servers, a script of matching requests that are all answered and that lead to the states the driver sees; so everything proved of all request histories holds of driver runs.", "quantifier": "every configuration, pair of server states, number of clients and population", "why_tests_cant": "Links all driver executions to all server histories.", "anchors": ["src/bin/driver.rs", "src/bin/server.rs: impl Collector for CollectorServer"]}
{"id": "C61", "title": "A whole weighted-heavy-hitters run, cheaters anywhere, is the run of a small abstract machine", "statement": "On arbitrary reports with well-formed keys, whichever of them the FLP verification accepts and wherever their check digests differ, a whole run (FLP verification, all levels with the cheater search and exclusions, last level) behaves like a machine that only knows the two report lists and the list of prefixes: it panics exactly when and how the machine does, and otherwise leaves the same clients excluded and returns the same results. In particular the outcome does not depend on build profiles or on the servers' own configuration; and if all cheaters pass the FLP verification but differ in their first digest, the run excludes exactly them and returns the exact heavy hitters of the honest clients.", "quantifier": "for all string lengths d >= 2, all numbers of reports, all well-formed report pairs (honest or malicious), all FLP decisions, thresholds, batch sizes, builds, provided no truncated BLAKE3 collision occurs in the states met", "why_tests_cant": "The interplay of exclusions, index shifts, batch boundaries and panics over arbitrarily many levels and malicious reports has unboundedly many cases; the repository's code never runs with malicious keys.", "anchors": ["src/bin/driver.rs:340-536 run_flp_queries, run_level, run_level_last", "src/bin/driver.rs:749-768 main", "src/collect.rs: tree_crawl, tree_crawl_last, tree_prune"]}
{"id": "C62", "title": "What a whole run of the driver program prints", "statement": "For every configuration and every outcome of the random draws, a run of the driver's main (generate reports, reset, upload with simulated misbehaviour, aggregate) has a determined outcome. Weighted heavy hitters: exactly the heavy hitters among the clients whose FLP proof was not tampered with, or a panic when no prefix of length d-2 is heavy. Attribute-based metrics without FLP tampering: a panic iff an attribute sample is the largest one, else per batch the histograms of the clients below the batch end, for the attributes of the reports after the sampled ones. Plain metrics without tampering: the exact bucket counts per batch. A run that completes had at least one bucket and one generated report, non-empty batches, in-range samples and a string length in the Mastic modes.", "quantifier": "for all configurations, numbers of clients, random draws, misbehaviour patterns, previous server states, builds and batch sizes; FLP and Prio3 complete, tampered FLP proofs rejected", "why_tests_cant": "The outcome is a statement about all random draws, all numbers of clients and all batch splits; a test run fixes one of each, and the servers' earlier state must not matter.", "anchors": ["src/bin/driver.rs:127-244 generate_reports", "src/bin/driver.rs:272-338 add_reports", "src/bin/driver.rs:689-802 main"]}
{"id": "C63", "title": "Attribute-based-metrics runs with misbehaving clients", "statement": "A whole attribute-based-metrics run on arbitrary well-formed reports has a determined outcome. If a server is a debug build and some report fails both the weight check and the path check, the run panics. Otherwise it completes and prints, for every batch, the failed checks of the batch and the sum over all clients below the end of the batch of the value tables of each server that counts the client: a debug server leaves out the clients that failed a check, a release server nobody. With honest reports and reports failing exactly one check, debug servers print exactly the failing positions and the histograms of the honest clients; release servers print the same positions and count everybody.", "quantifier": "for all numbers of clients, reports, batch sizes, attribute lists, builds of the two servers and HashMap iteration orders", "why_tests_cant": "The printed table depends on which reports fail which check in which batch and on the build of each server; a test uses one pattern and one build, and cargo test never runs the release behaviour.", "anchors": ["src/bin/driver.rs:539-612 run_attribute_based_metrics", "src/bin/server.rs:150-225 attribute_based_metrics_validate, attribute_based_metrics_result"]}
{"id": "C64", "title": "Plain-metrics runs with misbehaving clients", "statement": "A whole plain-metrics run on arbitrary reports has a determined outcome. If both servers can prepare every report, the driver prints per batch, in order, the number of rejected reports of the batch and the unsharded sums of the output shares of the others; it panics at the first batch in which the servers reject different numbers of reports or unsharding fails. One report that a server cannot prepare makes the whole run panic. If the cheaters are rejected by both servers, the run completes with the exact bucket counts of the honest clients and the exact number of cheaters of every batch.", "quantifier": "for all numbers of clients, reports, batch sizes, builds and reachable server states; Prio3 arbitrary apart from share decoding (and completeness in the last part)", "why_tests_cant": "Which reports are rejected in which batch, and what a panic in a later batch leaves, range over all report sequences; a test has one sequence, and preparation failures are never generated by the driver.", "anchors": ["src/bin/driver.rs:614-686 run_plain_metrics", "src/bin/server.rs:227-320 plain_metrics_validate, plain_metrics_result"]}
{"id": "C65", "title": "The joint randomness binds the client to its weight", "statement": "The FLP's soundness needs the joint randomness to be a function of the weight being proved. In this code it is derived from the root seeds, the aggregator ids and the nonce only, so it is the same for every weight the keys may encode: a client can compute it first and then choose its weight. For every joint randomness r0, r1 with r0 != 0 and r0 + r1 != 0 there is a weight that is not one-hot and passes the histogram circuit; a report on it passes the FLP verification and every check of the crawl, and whole runs print the sums of such weights. A weight fixed before the joint randomness is known passes for at most (n+1)/p of all joint randomness.", "quantifier": "for all client randomness, strings, numbers of buckets, numbers of clients and mixtures of forged and honest weights; FLP complete for the libprio histogram circuit", "why_tests_cant": "Tests report honest weights or corrupt a proof at random; the forged weight depends on the joint randomness of the report and is accepted always, which is a statement about all joint randomness.", "anchors": ["src/collect.rs:291-326 flp_joint_rand", "src/bin/driver.rs:147-170 joint randomness parts in generate_reports"]}
{"id": "C66", "title": "Expanding and converting a seed are separated", "statement": "expand_dir and convert are two functions of a seed that should behave as independent functions (domain separation), so that knowing one output says nothing about the other. In this code both run the same keystream of the same cipher from counters that only differ in the two masked bits, so for every seed with these bits clear the converted seed equals the left child and the first value entry is the right child read as a number. On other architectures the same happens for further seeds. For the remaining seeds the two use disjoint cipher inputs. (The key generation expands and converts different seeds, so the coincidence needs related seeds to bite.)", "quantifier": "for all seeds, ciphers, value lengths and both architectures", "why_tests_cant": "No test compares the outputs of the two functions, and a correct-looking output of each does not show that they coincide on a quarter of the seeds for every cipher.", "anchors": ["src/prg.rs:66-95 expand_dir", "src/prg.rs:101-123 convert"]}
{"id": "C67", "title": "PrgStream is a correct and silent random generator", "statement": "to_rng gives a random generator whose fill_bytes writes the next bytes of the keystream of the seed into the buffer, whatever the buffer held; successive requests continue the stream; it reveals the bytes to nobody else; and the XOR of seeds is bytewise and self-inverse.", "quantifier": "for all seeds, keystreams, buffer contents and lengths, sequences of requests, both builds", "why_tests_cant": "Tests use fresh zeroed buffers; the claim is about arbitrary buffer contents, where the code XORs instead of overwriting and a debug build panics, and about what is printed.", "anchors": ["src/prg.rs:55-64 to_rng", "src/prg.rs:138-150 BitXor", "src/prg.rs:160-201 PrgStream"]}
{"id": "C68", "title": "The programs start as their command line says", "statement": "A server starts exactly when its command line is complete, its file readable, its id 0 or 1 and its address free, and then waits at the address configured for its id with empty state; the driver connects to the two configured or overridden addresses and runs with the given number of clients. Started as documented, two servers and the driver print the heavy hitters of the clients. The options for server addresses override the file for both programs, -s names the option it is documented for, and this holds for debug and release builds.", "quantifier": "for all command lines, files, number formats, addresses, sets of running servers, random draws and both builds", "why_tests_cant": "Tests do not go through the command line; the claim ranges over all command lines, and the failures (a duplicate short option that aborts debug builds, ignored overrides) only show on command lines nobody tests.", "anchors": ["src/config.rs:60-162 get_config, get_args", "src/bin/server.rs:322-340 main", "src/bin/driver.rs:689-702 main"]}
{"id": "C69", "title": "The threshold is the configured fraction of the clients", "statement": "With threshold t and n clients, exactly the strings held by at least t*n clients are reported. The code computes t*n in floating point and truncates, and uses at least 1: the result is t*n rounded down or up, so every string of at least t*n holders is reported, but strings with fewer than t*n and at least floor(t*n) holders are too. NaN and negative thresholds count as 1, infinity as 2^64-1.", "quantifier": "for all finite thresholds t, all n < 2^53 with t*n < 2^53, all populations, under IEEE 754 double rounding", "why_tests_cant": "Tests use thresholds far from the boundary; the statement is about the rounding of every product.", "anchors": ["src/bin/driver.rs:394-398", "src/bin/driver.rs:473-477"]}
{"id": "C70", "title": "The shares of the FLP proof hide it", "statement": "The leader's and the helper's share of a client's FLP proof add up to the proof, and each share alone has the same distribution for every proof. The code draws the leader's share with Field128::from(u128), which is not uniform: the helper's share is biased, for any two different proofs of the same length, though by at most 2^69 of 2^128 draws per entry.", "quantifier": "for all proofs, all pairs of proofs of one length, all sets of share values", "why_tests_cant": "The bias is far below what sampling could show; the claim counts all 2^128 draws.", "anchors": ["src/bin/driver.rs:166-184"]}
{"id": "C71", "title": "Reported heavy hitters are consistent", "statement": "What a weighted-heavy-hitters run prints depends only on the multiset of the unrejected clients' strings and weights, the bits, buckets and effective threshold; a higher threshold prints some of the same results; every value has one entry per bucket adding up to its last entry, the number of holders, which reaches the threshold, and all these together do not exceed the number of clients; additional clients never remove a string or lower a value.", "quantifier": "for all pairs of runs with any primitives, seeds, orders of clients, batch sizes, builds and previous server states", "why_tests_cant": "Relates pairs of runs over all populations and parameters; a test compares a few runs.", "anchors": ["src/bin/driver.rs:387-538 run_level, run_level_last", "src/collect.rs:591-643 keep_values, final_values"]}
{"id": "C72", "title": "A report counts for its own string only", "statement": "In a weighted-heavy-hitters run the report of one client changes the count of no string but the client's own (and its prefixes), whatever the client sends, as long as it is not excluded.", "quantifier": "for all honest populations, all positions of the deviating client, all of its strings and all counts it tries to move, all thresholds, depths and primitives", "why_tests_cant": "The claim is about every report a client could craft; the deviating reports are constructed per string and count, and tests only send reports made by the client code.", "anchors": ["src/vidpf.rs:302-369 eval_bit", "src/collect.rs:591-606 keep_values", "src/bin/driver.rs:387-538 run_level"]}
{"id": "C73", "title": "At most one string per threshold many clients is reported", "statement": "A weighted-heavy-hitters run with N unrejected clients and threshold T reports at most N / max(1,T) strings, whatever one client sends.", "quantifier": "for all honest populations, thresholds, depths, weights and primitives, and all reports of one client", "why_tests_cant": "Needs crafted reports and a bound for every population; tests run the client code on a few populations.", "anchors": ["src/vidpf.rs:251-300 gen", "src/vidpf.rs:302-369 eval_bit", "src/collect.rs:591-643 keep_values, final_values"]}
{"id": "C74", "title": "In attribute-based metrics a report adds its weight to the attributes it holds", "statement": "In an attribute-based-metrics run a report that is not rejected adds its verified weight to the histograms of the attributes its string starts with and nothing to the others, whatever the client sends.", "quantifier": "for all honest populations, all positions of the deviating client, all attribute lists, all vectors it tries to add, all depths, batch sizes, builds and primitives", "why_tests_cant": "The claim is about every report a client could craft and every query; tests only send reports made by the client code.", "anchors": ["src/vidpf.rs:302-369 eval_bit", "src/vidpf.rs:411-464 eval_tree", "src/bin/driver.rs:539-611 run_attribute_based_metrics"]}
{"id": "C75", "title": "The order of calls does not change what a driver shows", "statement": "Whatever the order in which the two servers handle the calls of a driver and the driver receives the answers, the driver shows the result of the sequential run or panics exactly if that one panics; no execution goes on forever, and none is stuck before the driver has returned or panicked.", "quantifier": "for all interleavings, all three modes, all configurations, random draws, builds, primitives, server states at the start and numbers of other, idle drivers", "why_tests_cant": "The number of interleavings is unbounded and tests see the few the scheduler produces.", "anchors": ["src/bin/driver.rs:246-690 try_join! in all phases", "src/bin/server.rs:47-320 handlers with the lock held", "src/rpc.rs:86-143"]}
{"id": "C76", "title": "Sessions of several drivers do not disturb each other", "statement": "Drivers connected to the same two servers get the results of their own clients, also if they run at the same time or if another driver has failed before. (FALSE: requests carry no session, so a driver can show the result of another one or mix shares of different clients, and a panic in one session ends all later ones; an honest population without heavy prefixes causes it.)", "quantifier": "for all numbers of drivers, all interleavings of their steps, all configurations, draws, builds and primitives", "why_tests_cant": "Needs two drivers and specific interleavings; the tests and the documented use run one driver once.", "anchors": ["src/bin/server.rs:39-59 CollectorServer, reset", "src/bin/server.rs:61-70 add_report_shares", "src/bin/driver.rs:246-338 reset_servers, add_reports", "src/collect.rs:339-360 tree_crawl"]}
{"id": "C77", "title": "Messages arrive as they were sent", "statement": "Every request and every answer that the Rust types can hold is read back from its encoding, whatever follows it in the stream; no encoding of a request begins another one; and a run of the driver over two connections on which no message is too large shows exactly what the run on values shows.", "quantifier": "for all requests, answers, byte streams behind them, both integer encodings of bincode, all runs in all modes", "why_tests_cant": "The space of messages is infinite; tests send a few of them between processes built from the same source.", "anchors": ["src/rpc.rs:9-143 requests and answers", "src/collect.rs:52-65 ReportShare", "src/collect.rs:154-161 Result", "src/vidpf.rs:7-27 CorWord, VidpfKey", "src/bin/driver.rs:693-702 Bincode::default"]}
{"id": "C78", "title": "The size of a report is independent of its content", "statement": "The sizes printed by the driver and the size of both shares of every report on the wire depend on the number of bits, the number of buckets and the length of the proof only: not on the string, the weight, the random choices, the server or whether the client misbehaves. For n bits and b buckets the printed key size is 33 + n(42 + 24(b+1)).", "quantifier": "for all strings, weights, random choices, numbers of bits, buckets and reports, kinds of misbehaviour", "why_tests_cant": "Independence of secret data is a statement about all pairs of inputs.", "anchors": ["src/bin/driver.rs:213-240 printed sizes", "src/bin/driver.rs:85-124 to_shares", "src/bin/driver.rs:272-338 add_reports", "artifact/README.md:170-173"]}
{"id": "C79", "title": "Every batch size can be used", "statement": "For every positive add_report_share_batch_size and query_flp_batch_size the messages of a run can be sent. (FALSE: the transport keeps its default limit of 8 MiB per message, so for every number of bits and buckets there are batch sizes with which no run succeeds; the limit never causes wrong results.)", "quantifier": "for all numbers of bits, buckets and clients, batch sizes, draws, server states", "why_tests_cant": "Tests use small populations; the failing sizes depend on four parameters.", "anchors": ["src/bin/driver.rs:321-335 add_report_shares", "src/bin/driver.rs:344-376 run_flp_queries", "src/bin/driver.rs:693-702 tcp::connect", "src/bin/server.rs:340 tcp::listen", "README.md:179-192"]}
{"id": "C80", "title": "A report is counted at most once", "statement": "If the same report (same nonce, same shares) reaches the servers several times it is counted once. (FALSE: shares are appended to a list and nonces are never compared; k copies of one honest report are counted k times, so one client can lift its string over any threshold up to k by sending it again.)", "quantifier": "for all honest reports, numbers of copies, thresholds, configurations, cryptographic primitives with a complete FLP", "why_tests_cant": "The driver itself samples reports with repetition, so every test relies on repeated reports being counted.", "anchors": ["src/bin/server.rs:61-70 add_report_shares", "src/collect.rs:185-187 add_report_share", "src/bin/driver.rs:272-338 add_reports samples with repetition"]}
{"id": "C81", "title": "The proof system used by Mastic accepts honest reports", "statement": "For every number of buckets, the histogram FLP with chunk length 2 (written out from its definition, not assumed) accepts every proof made for a valid weight vector, for every sharing, joint randomness and prover randomness, except at the query points that are roots of unity; prover and query succeed exactly on inputs of the right length; and a whole weighted-heavy-hitters run with it returns exactly the heavy hitters unless the verify key leads to one of at most 2*buckets+1 query points per client, which are fixed before the key is drawn.", "quantifier": "for all numbers of buckets below 2^64, weight vectors, sharings, randomness, populations, verify keys", "why_tests_cant": "The exceptional query points are a negligible fraction of a 128-bit field; tests never hit them and cannot show that there are no others.", "anchors": ["src/lib.rs:75-131 Mastic::prove, query, decide, new_histogram", "src/collect.rs:244-281 run_flp_queries", "src/bin/driver.rs:340-380 run_flp_queries", "src/bin/driver.rs:150-185 report generation"]}
{"id": "C82", "title": "The proof system used by Mastic rejects invalid weights", "statement": "For every weight vector that fails the circuit and every proof, at most 2*(points-1) of the query points lead to acceptance; for a vector that is not one-hot, at most 3*buckets+1 of every p combinations of joint and query randomness do, even if the proof is chosen after the joint randomness; and the driver's tampering (adding 1337 to the first element of a proof share) is accepted for at most points-1 query points, unless the second wire's random seed is zero.", "quantifier": "for all numbers of buckets below 2^64, shares, proofs, joint and query randomness, tampering offsets", "why_tests_cant": "Soundness is about all proofs a cheating client could send; tests try one.", "anchors": ["src/collect.rs:244-281 run_flp_queries", "src/bin/driver.rs:340-380 run_flp_queries", "src/bin/driver.rs:289-304 malicious clients"]}
{"id": "C83", "title": "The FLP verifier that the servers exchange hides the weight", "statement": "For every two weight vectors that pass the circuit, every query point that is not a root of unity and every choice of the prover's randomness there is exactly one choice of randomness for the other vector with which the sum of the verifier shares is the same: with uniform randomness the exchanged verifier is distributed identically for all weights.", "quantifier": "for all numbers of buckets below 2^64, weights, joint randomness, query points, prover randomness", "why_tests_cant": "Zero knowledge is a statement about distributions over the whole field.", "anchors": ["src/collect.rs:244-281 run_flp_queries", "src/bin/driver.rs:340-380 run_flp_queries", "src/bin/driver.rs:172-173 prove_rand"]}
{"id": "C84", "title": "Weighted heavy hitters with one bit, no bits, or nobody left", "statement": "For the driver's own clients: with data_bits = 1 the program prints exactly the heavy hitters among all clients, tampered FLP proofs included, for every number of clients including zero; with data_bits >= 2 and every FLP proof rejected (or no clients) it panics in the first level; with data_bits = 0 no run completes (debug: subtraction overflow; release: wrap-around, then a panic in the first level); without data_bits both Mastic modes panic while generating reports. With C62 this covers every weighted-heavy-hitters run of the program with an otherwise sensible configuration.", "quantifier": "for all numbers of clients, buckets, batch sizes, thresholds, builds, random draws, tampering patterns, previous server states", "why_tests_cant": "Integration tests use one configuration with several bits and clients; the boundary configurations combine with every draw and build.", "anchors": ["src/bin/driver.rs:752-768 main, weighted heavy hitters", "src/bin/driver.rs:340-385 run_flp_queries", "src/bin/driver.rs:387-463 run_level", "src/vidpf.rs:302-369 eval_bit"]}
{"id": "C85", "title": "Prio3 as used by plain metrics is complete", "statement": "With libprio's Prio3 histogram written out (VDAF draft 08): a report can be made exactly for the buckets of the histogram; whatever the bytes received, the preparation share a server sends is read back by the other one; an honest report is prepared and accepted by servers 0 and 1 and the output shares add up to the encoded bucket, for every verify key whose query point for the nonce is not an interpolation point; at an interpolation point, and on a server with another id, no report can be prepared. A whole plain-metrics run without tampering then prints the exact bucket counts of every batch. The helper's input share has 48 bytes, the leader's 16*(buckets + proof length + 1); the sizes printed and those on the wire depend on the number of buckets only.", "quantifier": "for all numbers of buckets below 2^64, buckets, nonces, client randomness, verify keys, extendable output functions, numbers of clients, batch sizes, builds", "why_tests_cant": "Completeness for all keys and all randomness is not testable; the exceptional query points have negligible probability and are never seen in a test.", "anchors": ["src/bin/server.rs:227-266 plain_metrics_validate", "src/bin/server.rs:276-318 plain_metrics_result", "src/bin/driver.rs:196-207 Prio3 reports", "src/lib.rs:24-33 histogram_chunk_length"]}
{"id": "C86", "title": "Plain metrics: what clients can make the servers accept", "statement": "For arbitrary bytes in both report shares, even different public shares: outside at most 2*(points-1) query points, fixed before the verify key, a report accepted by both servers passes the histogram's check at the joint randomness hashed from the very shares the servers hold; a vector that is not one-hot is accepted for at most (buckets + 2*points) of every p values of joint randomness and query point, even if all else is chosen after the joint randomness; the output shares depend on the input shares only. The servers read exactly the encodings of the stated lengths, each value in one encoding only. If the servers derive the same joint randomness seed they accept or reject alike, so their rejected counts agree; if they derive different seeds, at most 2*points of every p values of the helper's randomness and the query point let one of them accept.", "quantifier": "for all numbers of buckets below 2^64, report bytes, verify keys, nonces, extendable output functions, client strategies", "why_tests_cant": "Quantifies over all malicious reports and counts field elements.", "anchors": ["src/bin/server.rs:227-266 plain_metrics_validate", "src/bin/server.rs:276-318 plain_metrics_result", "src/bin/driver.rs:662-666 assert_eq of rejected counts"]}
{"id": "C87", "title": "The driver's simulated misbehaviour in plain metrics is noticed", "statement": "Flipping the first bit of the helper's input share leaves the report preparable and replaces the helper's measurement share by the expansion of another seed. The leader rejects unless two hashes collide; both servers reject unless the circuit outputs on the two shares, with each server's own joint randomness, cancel; everything else fixed, that happens for at most two values of the helper's new random element (unless its share adds up to one half). A whole run with such clients, none of them lucky, prints per batch the number of misbehaving clients and the exact bucket counts of the others.", "quantifier": "for all numbers of buckets, honest reports, verify keys without interpolation points, extendable output functions, tampering patterns, batch sizes, builds", "why_tests_cant": "The comment in the driver says that tweaking the input share is sufficient to cause verification to fail; a test sees single random draws.", "anchors": ["src/bin/driver.rs:306-313 malicious Prio3 clients", "src/bin/server.rs:276-318 plain_metrics_result", "src/bin/driver.rs:614-686 run_plain_metrics"]}
{"id": "C88", "title": "Plain heavy hitters with one bucket", "statement": "As README section 4 says, with histograms of size 1 a weighted-heavy-hitters run is a plain heavy-hitters run: with libprio's proof system and a verify key avoiding at most three query points per client, the driver prints exactly the strings that at least max(1, threshold) of the clients with untampered proofs hold, in lexicographic order, each with that number. With more buckets the same run may print nothing although a string is held by everybody: if no client has the last bucket, nothing is printed.", "quantifier": "for all numbers of clients, string lengths >= 2, thresholds, batch sizes, builds, tampering patterns, extendable output functions", "why_tests_cant": "Holds for every population and every randomness; the shipped configurations use particular sizes only.", "anchors": ["README.md:173-176", "src/bin/driver.rs:387-537 run_level, run_level_last", "src/lib.rs:75-131 Mastic::new_histogram"]}
{"id": "C89", "title": "Neither server learns a client's bucket from a plain-metrics report", "statement": "All that one server sees of an honest plain-metrics report (public share, its input share, its preparation state and share, the other server's preparation share, the preparation message) it would see of a report for any other bucket: whatever the client's seeds, nonce, verify key and the other answers of the extendable output function, the random values this server does not know (for the leader: the helper's shares of vector and proof, the prover randomness and the helper's part of the joint randomness; for the helper: the prover randomness and the leader's part) correspond one to one so that corresponding values give the same view. So with uniform values the view has the same distribution for all buckets. The two input shares together determine the bucket.", "quantifier": "for all numbers of buckets below 2^64, pairs of buckets, client seeds, nonces, verify keys (also those that make preparation fail), extendable output functions and values", "why_tests_cant": "Statement about all values of the randomness at once; a test sees single views, none of which tells anything about a distribution.", "anchors": ["src/bin/driver.rs:196-207 generate_reports, plain metrics", "src/bin/server.rs:236-266 plain_metrics preparation", "src/bin/server.rs:276-318 plain_metrics_result"]}
{"id": "C90", "title": "Neither server learns a client's weight from a Mastic report before the crawl", "statement": "All that one server sees of an honest report in the two Mastic modes before the crawl (nonce, its key, its proof share, both joint-randomness parts, its own and the other server's verifier share) it would see of a report for any other bucket with the same string: if no cipher input behind the other server's values on the client's path is used for anything else, then the values this server does not know (the other server's value entries on the path, the prover randomness, the randomness splitting the proof) correspond one to one so that corresponding values give the same view. So with uniform values the view has the same distribution for all buckets. Both keys together determine the weight. Keys made from the same seeds for two weights differ, at every level, exactly by plus or minus the difference of the weights, so seeds used twice would tell it.", "quantifier": "for all numbers of buckets below 2^64, pairs of buckets, nonempty strings of any length, seeds and ciphers with fresh value inputs, nonces, verify keys (also those that make the query fail) and values, for each of the two servers", "why_tests_cant": "Statement about all values of the randomness at once and about strings of every length; a test sees single keys, none of which tells anything about a distribution.", "anchors": ["src/vidpf.rs:251-300 VidpfKey::gen", "src/vidpf.rs:190-243 gen_cor_word", "src/bin/driver.rs:140-195 generate_reports", "src/bin/server.rs:97-112 run_flp_queries, apply_flp_results"]}
{"id": "C91", "title": "Both servers verify a report with the same joint randomness", "statement": "The two servers verify a report with the same joint randomness, whatever the client sends, so that a weight that does not pass the circuit is rejected at all but few query points. (False of the code: each server derives the joint randomness from its own copy of the other server's part and the copies are never compared. A client that sends one server another part gets every vector of weights accepted for every verify key whose query point is no root of unity, no later check notices it, and whole runs print the sums of such vectors. True if the two copies lead to the same joint randomness.)", "quantifier": "for all numbers of buckets from 1 to below 2^64, strings, vectors of weights, nonces, seeds, copies leading to a different second element, verify keys, and whole runs of any number of such clients", "why_tests_cant": "A test can show that one tampered copy is rejected, as most are; that suitable proof shares exist for every vector and work for all verify keys at once is a statement about all of them.", "anchors": ["src/collect.rs:283-326 flp_joint_rand", "src/collect.rs:240-281 run_flp_queries", "src/bin/driver.rs:140-195 generate_reports"]}
{"id": "C92", "title": "The requests of a run tell the servers the heavy prefixes and the accepted clients, nothing else", "statement": "In a weighted-heavy-hitters run with honest clients and clients that the FLP verification rejects, in which some prefix of length d - 2 is heavy, the driver sends both servers the same requests, and these are a function of the number of clients, the batch size, which clients are rejected and the heavy prefixes of each length. In particular they do not depend on the weights. Conversely the requests determine the rejected clients and the heavy prefixes of each length, so this is exactly what they reveal. In attribute-based metrics, whatever the reports, the requests of a completed run are a function of the attributes, the batches and the rejections.", "quantifier": "for all numbers of clients below 2^64, strings of any length from 2, weights, thresholds, batch sizes, verify keys, primitives and builds; for attribute-based metrics all reports and attributes", "why_tests_cant": "A test compares the requests of single runs; that they are the same for all weights and differ exactly with the heavy prefixes is a statement about all pairs of populations.", "anchors": ["src/bin/driver.rs:340-385 run_flp_queries", "src/bin/driver.rs:387-463 run_level", "src/bin/driver.rs:465-537 run_level_last", "src/bin/driver.rs:539-615 run_attribute_based_metrics", "src/bin/driver.rs:752-768 main"]}
{"id": "C93", "title": "Over a whole run neither server learns the clients' weights", "statement": "Take a complete weighted-heavy-hitters or attribute-based-metrics run from the driver's random choices to the printed result: reset, upload of all shares, FLP requests, crawl or attribute queries. For each server and any two assignments of weights to the generated reports there is a bijection between the random values this server does not know (the other server's values on the clients' paths, the prover randomness and the proof-splitting randomness of all reports), such that corresponding runs both complete, send this server exactly the same requests, and output the correct result for their weights. So with these values uniform everything a server receives in a run has the same distribution whatever the weights are, although the results differ.", "quantifier": "for all numbers of clients below 2^64, generated reports and picks (several clients may pick the same report), strings of any length from 2 (weighted heavy hitters) or 1 (metrics), pairs of weight assignments, thresholds, batch sizes, attributes, verify keys off the interpolation points, primitives whose cipher inputs do not collide, and builds", "why_tests_cant": "Equality of distributions of complete conversations for all pairs of populations cannot be sampled: the space of coins has hundreds of bits per report, and a run shows one view only.", "anchors": ["src/bin/driver.rs:127-243 generate_reports", "src/bin/driver.rs:272-338 add_reports", "src/bin/driver.rs:340-385 run_flp_queries", "src/bin/driver.rs:387-463 run_level", "src/bin/driver.rs:465-537 run_level_last", "src/bin/driver.rs:539-615 run_attribute_based_metrics", "src/bin/driver.rs:689-780 main", "src/vidpf.rs:251-300 VidpfKey::gen"]}
{"id": "C94", "title": "Over a whole plain-metrics run neither server learns the clients' buckets", "statement": "Take a complete plain-metrics run with libprio's Prio3, from the driver's random choices to the printed counts: reset, upload of all shares, and per batch the preparation requests and the exchange of the preparation shares. For each server and any two assignments of buckets to the generated reports there is a bijection between the random values this server does not know (for the leader: helper shares of vector and proof, prover randomness, helper's joint-randomness part of every report; for the helper: prover randomness and leader's part), such that corresponding runs both complete, send this server exactly the same requests, the other server's preparation shares included, and print the exact counts of their buckets. So with these values uniform everything a server receives in a run has the same distribution whatever the buckets are, although the results differ.", "quantifier": "for all numbers of clients below the field size, generated reports and picks, pairs of bucket assignments, numbers of buckets below 2^64, batch sizes, seeds of different reports that differ per purpose, nonces, verify keys giving no interpolation point as query point, extendable output functions, other primitives and builds", "why_tests_cant": "Equality of distributions of complete conversations for all pairs of populations cannot be sampled: there are several field elements of randomness per report, and a run shows one view only. The verifier shares that the servers exchange depend on the bucket through every wire of the circuit.", "anchors": ["src/bin/driver.rs:127-243 generate_reports", "src/bin/driver.rs:614-687 run_plain_metrics", "src/bin/server.rs:227-277 plain_metrics_validate", "src/bin/server.rs:279-319 plain_metrics_result"]}
{"id": "C95", "title": "One server and the collector together learn only the total weights below the crawled prefixes", "statement": "Take a complete weighted-heavy-hitters run with libprio's proof system in which the clients do not tamper with their proofs. Let two assignments of weights give the same total weight vector at every prefix that the servers evaluate (the one-bit extensions of the heavy prefixes). Then for each server there is a bijection between the random values this server does not know such that corresponding runs both complete, this server gets the same requests in both (all shares included), and the collector sends the other server the same requests after the upload and gets the same answers from both servers: verifiers, values, Merkle roots with indices, and last-level proofs. Conversely the answers determine the total weights at all these prefixes, so nothing less than these totals is learned; in particular the weight of a client with a light prefix of its own is in the answers even though the printed result does not contain it.", "quantifier": "for all numbers of clients below 2^64, generated reports and picks, strings of any length from 2, pairs of weight assignments, thresholds, batch sizes, verify keys off the interpolation points, primitives whose cipher inputs do not collide with those of the server's own evaluations, both servers, and builds", "why_tests_cant": "The claim compares the joint distributions of complete conversations and of all answers of two servers for all pairs of populations with equal totals; a run shows a single view, and the space of coins has hundreds of bits per report.", "anchors": ["src/bin/driver.rs:340-385 run_flp_queries", "src/bin/driver.rs:387-463 run_level", "src/bin/driver.rs:465-537 run_level_last", "src/bin/server.rs:81-150 tree_crawl, run_flp_queries, apply_flp_results, tree_crawl_last, get_proofs, tree_prune, final_shares", "src/collect.rs:244-289 run_flp_queries", "src/collect.rs:339-562 tree_crawl, tree_crawl_last, get_proofs", "src/vidpf.rs:302-378 VidpfKey::eval_bit, eval_init"]}
{"id": "C96", "title": "One server and the collector together learn only the printed result of a plain-metrics run", "statement": "Take a complete plain-metrics run with libprio's Prio3 in which no client tampers. Let two assignments of buckets to the clients give the same printed result, that is the same histogram for every batch. Then for the leader, and likewise for the helper, there is a bijection between the random values this server does not know such that corresponding runs both complete and print this result, this server gets the same requests in both (all report shares included), and the collector sends the other server the same requests after the upload and gets the same answers from both servers: preparation shares and aggregate shares of every batch.", "quantifier": "for all numbers of clients below the field modulus, generated reports with distinct seeds, picks, pairs of bucket assignments with equal printed results, histogram lengths below 2^64, batch sizes, verify keys off the interpolation points, both servers, all builds and all earlier server states", "why_tests_cant": "The claim compares the joint distribution of a server's complete view and of all answers the collector gets for every pair of populations with equal histograms; a run shows one view and the space of the unknown values is a power of a 128-bit field.", "anchors": ["src/bin/driver.rs:127-243 generate_reports", "src/bin/driver.rs:614-687 run_plain_metrics", "src/bin/server.rs:227-277 plain_metrics_validate", "src/bin/server.rs:279-319 plain_metrics_result"]}
{"id": "C97", "title": "One server and the collector together learn only the printed result of an attribute-based-metrics run", "statement": "Take a complete attribute-based-metrics run with libprio's proof system in which the clients do not tamper with their proofs. Let two assignments of weights give the same printed result, that is for every batch and every attribute the same histogram of the clients so far. Then for each server there is a bijection between the random values this server does not know such that corresponding runs both complete and print this result, this server gets the same requests in both (all shares included), and the collector sends the other server the same requests after the upload and gets the same answers from both servers: verifier shares, digests of the evaluation proofs, and aggregate tables. In particular the weights of clients that hold none of the attributes stay hidden even from a server working with the collector.", "quantifier": "for all numbers of clients, generated reports and picks, strings of any length from 1, lists of attributes, pairs of weight assignments with equal printed results, batch sizes, verify keys off the interpolation points, primitives whose cipher inputs do not collide with those of the server's own evaluations, both servers, builds and earlier server states", "why_tests_cant": "The claim compares the joint distributions of complete conversations and of all answers of two servers for all pairs of populations with equal histograms; a run shows a single view, and the space of coins has hundreds of bits per report.", "anchors": ["src/bin/driver.rs:127-243 generate_reports", "src/bin/driver.rs:539-612 run_attribute_based_metrics", "src/bin/server.rs:150-199 attribute_based_metrics_validate", "src/bin/server.rs:201-225 attribute_based_metrics_result", "src/vidpf.rs:411-464 VidpfKey::eval_tree"]}
{"id": "C98", "title": "A collector cannot single out a client", "statement": "Whatever requests the collector sends after the upload, the answers of the two servers add up only to totals over at least threshold many clients; in particular the collector never gets the string and weight of an individual client, and nothing that the driver prints is the weight of an individual client.", "quantifier": "for all requests a collector may send, all honest populations, thresholds, string lengths from 2, primitives and builds", "why_tests_cant": "The claim is about all sequences of requests, also those that the driver never sends; tests run the driver. Its refutation is a strategy that works for every population, string length and primitive, which a run on samples does not show.", "anchors": ["src/bin/server.rs:72-112 tree_init, tree_crawl, apply_flp_results", "src/bin/server.rs:114-148 tree_crawl_last, tree_prune, final_shares", "src/collect.rs:189-204 tree_init", "src/collect.rs:577-589 apply_flp_results", "src/bin/driver.rs:614-686 run_plain_metrics"]}
{"id": "C99", "title": "A server that deviates from its code learns no more than one that follows it", "statement": "If one server answers the driver's requests as it likes and the other server and the driver run the code, then the deviating server gets no request that tells it more about the clients than the requests it gets when it runs the code.", "quantifier": "for either server, all answering strategies, all honest populations, thresholds, string lengths from 2, batch sizes, primitives and builds", "why_tests_cant": "The claim is about all answering strategies of a server; tests run the server's code on both sides. Its refutation is a strategy that works against every honest population, threshold and string length; the true part for plain metrics is an induction over the driver's requests for an arbitrary strategy.", "anchors": ["src/bin/driver.rs:340-385 run_flp_queries", "src/bin/driver.rs:387-463 run_level", "src/bin/driver.rs:465-520 run_level_last", "src/collect.rs:591-610 keep_values", "src/bin/driver.rs:614-686 run_plain_metrics"]}
{"id": "C100", "title": "A run sends boundedly many requests, whatever clients and servers do", "statement": "However the clients' reports are made and whatever the two servers answer, main sends at most a fixed number of requests to each server: reset, one request per upload batch, and in weighted heavy hitters one tree initialisation, one FLP query per query batch and one request with the results, at most ceil(log2 n) + 2 crawls and one pruning for each of the d - 1 levels, and the requests of the last level; in the metrics modes two requests per query batch. A run that comes to its end sends at least as many as with a single crawl per level, and exactly the fixed number in the metrics modes. The upper bound is reached.", "quantifier": "for all numbers of clients, batch sizes from 1, string lengths from 1, thresholds, modes, reports, primitives and builds, and all answering strategies of both servers together", "why_tests_cant": "The claim is about all answers of both servers and all numbers of clients; tests see honest servers and a few sizes. The proof is an induction over the driver as a process, with the doubling of the split as the measure of the search loop.", "anchors": ["src/bin/driver.rs:340-385 run_flp_queries", "src/bin/driver.rs:387-463 run_level", "src/bin/driver.rs:465-537 run_level_last", "src/bin/driver.rs:539-686 run_attribute_based_metrics, run_plain_metrics", "src/bin/driver.rs:689-802 main"]}
{"id": "C101", "title": "The servers keep at most one prefix per threshold many clients", "statement": "In a weighted-heavy-hitters run with N accepted clients and threshold T, every pruning leaves at most N / max(1,T) prefixes, so that every crawl is over at most twice as many (two on the first level), whatever one client sends.", "quantifier": "for all populations, thresholds, string lengths from 2, weights, batch sizes, primitives and builds, and all reports of one client", "why_tests_cant": "The bound is on all levels of all runs; a test with generated clients always meets it. Its refutation needs a crafted report that both checks accept on every level of every run.", "anchors": ["src/collect.rs:339-517 tree_crawl", "src/collect.rs:591-606 keep_values", "src/collect.rs:564-589 tree_prune", "src/bin/driver.rs:387-463 run_level"]}
{"id": "C102", "title": "A server that deviates from its code cannot change the result of a run", "statement": "Whatever one server answers to the driver, if the driver comes to the end of the run with the other server running the code on honest reports, then it ends with the result of the honest run.", "quantifier": "for all populations of honest clients, all answering strategies of one server, either server, the three modes, all string lengths, thresholds, batch sizes, primitives and builds", "why_tests_cant": "The claim is about all strategies of a server; tests run two servers with the code. The refutation needs a strategy that gets through every check of the driver in every run, and the limits that do hold need an induction over all answers.", "anchors": ["src/bin/driver.rs:387-537 run_level, run_level_last", "src/bin/driver.rs:539-686 run_attribute_based_metrics, run_plain_metrics", "src/collect.rs:591-643 keep_values, final_shares, final_values"]}
{"id": "C103", "title": "Somebody who reads the connections learns nothing about the clients", "statement": "The bytes on the connections between the driver and the servers reveal neither the strings nor the weights of the clients, beyond the result that the driver shows.", "quantifier": "for all runs of the three modes, all configurations, random values and answers of the servers, misbehaving clients included, both integer encodings of bincode", "why_tests_cant": "Secrecy is a statement about what can be computed from the bytes of a run, for all clients and random values; no test of outputs shows it. The refutation gives one fixed reader that works for every run, the positive part compares pairs of runs for all values that the reader does not know.", "anchors": ["src/bin/driver.rs:693-702 tcp::connect(.., Bincode::default)", "src/bin/server.rs:340 tcp::listen", "src/bin/driver.rs:272-338 add_reports", "src/vidpf.rs:190-300 gen_cor_word, gen", "src/rpc.rs:86-143"]}
{"id": "C104", "title": "Runs that end normally do not depend on how the servers were started", "statement": "The driver and each server read their own configuration and are compiled separately. If a run of the program comes to its normal end although the servers were started with other settings than the driver's - another number of bits, another build, exchanged numbers - then it shows what it shows with the right settings.", "quantifier": "for all configurations, random values, reports (honest or not), server settings, hash orders, states before the run, and the three modes", "why_tests_cant": "Tests start both servers from one file and one build. The claim compares all pairs of settings over all runs, which needs an induction over the run that relates two servers request by request.", "anchors": ["src/bin/server.rs:322-351 main", "src/config.rs:65-162 get_args", "src/collect.rs:339-517 tree_crawl debug_assert, expect", "src/bin/server.rs:150-199 attribute_based_metrics_validate", "src/bin/driver.rs:246-261 reset_servers"]}
{"id": "C105", "title": "The three modes agree", "statement": "Runs of the three modes over the same honest clients show consistent numbers: an attribute of attribute-based metrics is reported by weighted heavy hitters with exactly the same histogram, or its histogram sums to less than the threshold; the values of weighted heavy hitters, and the histograms of the attributes, do not exceed bucket by bucket the totals of plain metrics, and add up to them if the threshold is at most one, or if every client's string is an attribute.", "quantifier": "for all populations in any order, all primitives, seeds, batch sizes, builds, previous server states and configurations with the same buckets, all attribute samples", "why_tests_cant": "The three modes use different protocols (prefix tree, point evaluations, Prio3) and different code in the driver and the servers; equality of their results for all populations needs the exactness of each of them.", "anchors": ["src/bin/driver.rs:387-537 run_level, run_level_last", "src/bin/driver.rs:539-612 run_attribute_based_metrics", "src/bin/driver.rs:614-686 run_plain_metrics", "src/bin/driver.rs:689-802 main"]}
{"id": "C106", "title": "The lengths of the messages", "statement": "Somebody who sees only how many bytes each message of a connection has, as with TLS, learns of a run without changed proofs: in plain metrics nothing beyond the configuration and the number of clients; in attribute-based metrics in addition exactly the number of different attributes; in weighted heavy hitters in addition exactly the number of heavy prefixes of every length, from either connection alone.", "quantifier": "for all populations, keys, seeds, batch sizes, builds, previous server states, both integer encodings, both connections; primitives with proofs and verifiers of one length", "why_tests_cant": "The claim compares the whole transcripts of all pairs of runs; the other direction (nothing else is revealed) needs the exact length of every message of every run.", "anchors": ["src/collect.rs:52-65 ReportShare", "src/rpc.rs:9-143 Collector", "src/bin/driver.rs:689-802 main", "src/bin/server.rs:48-320 Collector for CollectorServer"]}
{"id": "C107", "title": "Requests that arrive twice", "statement": "A server that has answered a request and receives it once more gives the same answer and keeps its state exactly if the request is a reset, an initialisation of the tree, an application of FLP results, a validation, a query, a retried crawl, or one of the others with nothing to do; a repeated upload stores the reports again, a repeated crawl moves the tree one level further, and a repeated pruning, attribute result (debug builds) or plain result makes the server unusable.", "quantifier": "for all reachable server states, all requests, both builds and all primitives", "why_tests_cant": "It is a statement about all reachable states and all requests, in both directions.", "anchors": ["src/bin/server.rs:48-320 Collector for CollectorServer", "src/collect.rs:339-517 tree_crawl", "src/collect.rs:519-587 tree_crawl_last, get_proofs, tree_prune, apply_flp_results"]}
{"id": "C108", "title": "The Merkle trees cover all included clients", "statement": "The number of leaves 1 << (n as f32).log2().ceil() is at least the number n of included clients, and is the smallest such power of two, so that the root the servers exchange depends on the digest of every included client.", "quantifier": "for all numbers of clients, all f32 logarithms with an error below one unit in the last place, all server states and all positions of cheaters", "why_tests_cant": "The first number of clients for which it fails is above two million, and the failure is silent.", "anchors": ["src/collect.rs:479-517 tree_crawl, num_leaves and chunks_list[0]"]}
{"id": "C109", "title": "Arbitrary bytes on the wire", "statement": "Whatever bytes a server receives: what it reads from them is a value of the Rust types (the frames amount to a history of typed requests, unreadable ones do nothing), the encoding that the driver sends is the only shortest one of a request, the stored reports are never larger than all received frames together, and a message has only one encoding.", "quantifier": "for all byte strings, all sequences of frames, all server states, both integer encodings and all primitives", "why_tests_cant": "It is a statement about all byte strings, including those that no encoder produces.", "anchors": ["src/bin/server.rs:339-360 main, tcp::listen", "src/rpc.rs Collector", "src/collect.rs:23-40 ReportShare"]}
{"id": "C110", "title": "The repository's tests pass for all inputs", "statement": "With parameters in place of their literals and whatever the random choices: the collection test arrives at exactly the strings held by at least the threshold of clients, each with its histogram and count (or stops with an index out of bounds if no prefix of all but two bits is that frequent); the VIDPF test passes for every size, point and value; the prefix-tree test passes exactly if its expectations are the point function; the FLP test passes exactly if no query point is an interpolation point. In particular the literal collection test passes.", "quantifier": "for all seeds, primitives, builds, numbers of clients, string lengths, buckets, thresholds, verify keys, attributes and expectations", "why_tests_cant": "The tests draw fresh randomness in every run and look at one choice of strings and sizes; that they can never fail by chance is a statement about all draws.", "anchors": ["tests/collect_test.rs:6-186", "tests/dpf_test.rs:8-40", "tests/flp_test.rs:12-110", "src/vidpf.rs:476-542"]}
{"id": "C111", "title": "Which configurations cannot make a weighted-heavy-hitters run panic", "statement": "No population of n honest clients, whatever their strings and choices of reports, makes a weighted-heavy-hitters run panic if and only if n exceeds (threshold - 1) times the number of prefixes of all but two bits that the generated strings can have. With src/configs/weighted-heavy-hitters.toml and at most 35% tampered proofs every run ends with the right heavy hitters; with the weighted-heavy-hitters files of artifact/configs this is so exactly for fewer than 200 honest clients.", "quantifier": "for all numbers of clients, thresholds, string lengths, reports, choices of reports, verify keys, builds and primitives with a complete FLP", "why_tests_cant": "The strings are drawn at random in every run; whether some draw makes the run panic is a statement about all of them, and the draws that do are rare for small n.", "anchors": ["src/bin/driver.rs:390-560", "src/configs/weighted-heavy-hitters.toml:1-12", "artifact/configs"]}
{"id": "C112", "title": "Which runs the frame limit of the transport allows", "statement": "A run without tampering ends over the network with the result of the run on values if all message lengths, which are given by a formula, are within the frame limit, and otherwise the driver panics. With the files in src/configs and the default limit of 8 MiB, runs end for up to 81400 (weighted heavy hitters), 62100 (attribute-based metrics) and 74200 (plain metrics) clients and panic from 81443, 62138 and 74236 clients on, whatever the strings and weights.", "quantifier": "for all configurations, numbers of clients, strings, weights, random draws, builds, states of the servers, connections and primitives with a complete FLP and fixed proof lengths", "why_tests_cant": "A run with 80000 clients takes long, and the boundary depends on every message of the run; tests use at most a few hundred clients and no network.", "anchors": ["src/bin/driver.rs:245-700", "src/rpc.rs:86-143", "src/configs", "README.md:178-194"]}
{"id": "C113", "title": "Smaller batches make every run possible", "statement": "As artifact/README.md says, a run that crashes because of the sizes of its messages can be repaired by reducing the two batch sizes: if a batch of uploads and a batch of answers fit into a frame, the run without tampering ends over the network with the result of the run on values, for any number of clients.", "quantifier": "for all three modes, configurations, numbers of clients, strings, weights, random draws, builds, states of the servers, connections with tokio's frame limit and primitives with a complete FLP and fixed proof lengths", "why_tests_cant": "The claim is about any number of clients, and the message that breaks it for weighted heavy hitters only becomes too long at 8.4 million clients.", "anchors": ["artifact/README.md:317-336", "src/bin/driver.rs:245-700", "src/bin/driver.rs:372-382", "src/configs"]}
{"id": "C114", "title": "A run that crashes because of the frame limit does not impair later runs", "statement": "However a run that would end on values ends over the network, no mutex is poisoned and the two servers are as good as new: every later run on them has exactly the outcome it has on servers that have just been started. In particular the advice of artifact/README.md, to repeat a crashed run with smaller batches, works without restarting the servers, for the shipped file with up to 8387500 clients. After a crash in a handler every later run panics instead.", "quantifier": "for all runs of all modes, configurations, clients, states of the servers and connections with any limits below 2^64; for all later drivers, configurations, draws and connections", "why_tests_cant": "The crash can come at any of the messages, with one server ahead of the other, and the later runs are arbitrary.", "anchors": ["src/bin/driver.rs:256-258", "src/bin/driver.rs:333-335", "src/bin/server.rs:49-59", "src/bin/server.rs:339-360", "artifact/README.md:324-336"]}
