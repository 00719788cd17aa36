{"id": "C01", "title": "Group elements survive the wire", "statement": "Encoding a valid suite point and decoding the bytes gives the same point back; every encoding of a suite point has the same fixed width (64 bytes for QR512); distinct points have distinct encodings.", "quantifier": "every group element of every residue group (P,Q,G)", "why_tests_cant": "tests encode a handful of random points; leading-zero padding only matters for rare short values", "anchors": ["primitive/fujiokam/residue.go:MarshalBinary,UnmarshalBinary", "util/Util.go:EncodePoint,DecodePoint"]}
{"id": "C02", "title": "Decoding only admits members of the prime-order subgroup", "statement": "A byte string is accepted as a point exactly when the big-endian number it denotes is in 1..P-1 and has order dividing Q; every other byte string yields an error. (User expectation that each point has only one accepted encoding is false: leading zero bytes are accepted.)", "quantifier": "every byte string of every length", "why_tests_cant": "the set of byte strings is infinite; small-order elements are never hit by random tests", "anchors": ["primitive/fujiokam/residue.go:Valid,UnmarshalBinary"]}
{"id": "C03", "title": "Point arithmetic is the arithmetic of the residue group", "statement": "Add, Sub, Neg, Mul, Null, Base computed on big integers implement the commutative group of residues modulo P: results are always reduced, valid points are closed under all of them, Sub undoes Add, Mul by s+t is Mul by s then Add Mul by t, Mul twice multiplies the exponents modulo Q.", "quantifier": "all points, all secrets, all prime P = 2Q+1", "why_tests_cant": "algebraic laws over a 512-bit group cannot be enumerated", "anchors": ["primitive/fujiokam/residue.go:Add,Sub,Neg,Mul,Null,Base"]}
{"id": "C04", "title": "Data embedded in a point can be extracted", "statement": "Whenever Pick embeds data into a point (for whatever random bits it finally accepts) Data returns exactly the embedded prefix of the data, whose length is min(len(data), PickLen).", "quantifier": "all data, all random bit streams on which Pick terminates", "why_tests_cant": "random stream and data are unbounded", "anchors": ["primitive/fujiokam/residue.go:Pick,Data,PickLen"]}
{"id": "C05", "title": "Integer to 4-byte conversion", "statement": "ByteToInt(IntToByte(n)) = n for every 0 <= n < 2^32; in general it is n modulo 2^32, so out-of-range and negative indicators are not represented faithfully.", "quantifier": "every Go int", "why_tests_cant": "2^64 ints", "anchors": ["util/Util.go:IntToByte,ByteToInt"]}
{"id": "C06", "title": "Conversions between secrets/points and integers are inverse", "statement": "BigIntToSecret(SecretToBigInt(s)) = s; SecretToBigInt(BigIntToSecret(i)) is i mod Q in 0..Q-1; BigIntToPoint(PointToBigInt(p)) = p for every valid point.", "quantifier": "all secrets, integers and points", "why_tests_cant": "unbounded integers incl. negatives", "anchors": ["util/Util.go:SecretToBigInt,BigIntToSecret,PointToBigInt,BigIntToPoint", "primitive/pedersen_fujiokam/equality.go"]}
{"id": "C07", "title": "Key-list lookup", "statement": "FindIndexWithinKeyList returns the least index holding the pseudonym, and -1 exactly if it is absent; FindIntUsingKeyList returns the value at that index and 0 if absent; FindCommUsingKeyList the pair at that index.", "quantifier": "all lists and pseudonyms", "why_tests_cant": "lists of any length incl. duplicates", "anchors": ["util/Util.go:FindIndexWithinKeyList,FindIntUsingKeyList,FindCommUsingKeyList"]}
{"id": "C08", "title": "Configuration lookup", "statement": "Reading well-formed config files yields for every key the value of its last definition, with local.properties taking precedence over conn.properties in ReadConfig (and the opposite precedence in GetParameter); a line without '=' crashes the process.", "quantifier": "all file contents", "why_tests_cant": "arbitrary files", "anchors": ["util/ConfigReader.go:ReadConfig,GetParameter,readConfig"]}
{"id": "C09", "title": "A genuine signature always verifies", "statement": "For every message, key pair, generator of the suite group and nonce, ElGamalVerify accepts what ElGamalSign produced (including the byte encoding of the signature).", "quantifier": "all messages, keys, bases, nonces, hash functions", "why_tests_cant": "infinite message and key space", "anchors": ["util/Util.go:ElGamalSign,ElGamalVerify,hashElGamal"]}
{"id": "C10", "title": "A signature is bound to its message", "statement": "A signature accepted for one message is accepted for another one under the same key and base only if the two messages have the same challenge hash; two accepted signatures with the same commitment and different challenges determine the signing key (special soundness).", "quantifier": "all messages, keys, signatures", "why_tests_cant": "universally quantified over adversarial byte strings", "anchors": ["util/Util.go:ElGamalVerify,hashElGamal"]}
{"id": "C11", "title": "Only a server can produce its assignment signature", "statement": "A signature on an assignment verifies under a server's (or the coordinator's) public key only if it was made with the corresponding private key.", "quantifier": "all assignments, keys and adversarial signatures", "why_tests_cant": "an adversary's strategies cannot be enumerated by tests", "anchors": ["cmd/coordinator/CoordinatorHandler.go:handleVote", "cmd/server/AnonServerHandler.go:handleSignAssignments", "cmd/coordinator/Coordinator.go:SignMessage", "util/Util.go:ElGamalVerify"]}
{"id": "C12", "title": "Signing does not reveal the private key", "statement": "An observer of signatures cannot compute the signer's private key from them.", "quantifier": "all keys, messages, and observers", "why_tests_cant": "about all algorithms of an observer", "anchors": ["cmd/client/ClientLauncher.go:postBridge,requestBridges,sendVote", "cmd/coordinator/Coordinator.go:SignMessage", "util/Util.go:ElGamalSign"]}
{"id": "C13", "title": "ElGamal encryption round trip", "statement": "Decrypting an encrypted point with the matching private key gives the point back.", "quantifier": "all keys, points, ephemeral secrets", "why_tests_cant": "infinite group", "anchors": ["util/Util.go:ElGamalEncrypt,ElGamalDecrypt"]}
{"id": "C14", "title": "A post signature covers exactly one (address, pseudonym) pair", "statement": "Two post-bridge requests carrying fixed-width pseudonym encodings that produce the same signed bytes have the same bridge address and the same pseudonym.", "quantifier": "all pairs of requests", "why_tests_cant": "infinite space of strings", "anchors": ["cmd/bridge/bridge.go:MessageOfPostBridge", "cmd/client/ClientLauncher.go:postBridge"]}
{"id": "C15", "title": "A request signature covers every field of the request", "statement": "Two bridge requests with equal signed bytes agree on indicator, pseudonym, commitments, randomness and arguments.", "quantifier": "all pairs of requests", "why_tests_cant": "infinite space", "anchors": ["cmd/bridge/bridge.go:MessageOfRequestBridges", "util/Util.go:IntToByte"]}
{"id": "C16", "title": "A vote signature covers the feedback", "statement": "Two votes with equal signed bytes carry the same feedback value: a +1 vote cannot be turned into a -1 vote.", "quantifier": "all pairs of votes", "why_tests_cant": "infinite space", "anchors": ["cmd/bridge/bridge.go:MessageOfVote"]}
{"id": "C17", "title": "The coordinator's signature on a delivered assignment covers both the assignment and the signatures", "statement": "Two GOT_SIGNS deliveries with equal signed bytes carry the same assignment bytes and signature bytes.", "quantifier": "all pairs of deliveries", "why_tests_cant": "infinite space", "anchors": ["cmd/bridge/bridge.go:MessageOfGotSignatures", "cmd/client/ClientHandler.go:handleGotSignatures"]}
{"id": "C18", "title": "Pedersen commitments open", "statement": "Verify accepts the value and randomness returned by Commit; it accepts (x,r) for a commitment exactly when the commitment is GT^x HT^r.", "quantifier": "all values, randomness, bases", "why_tests_cant": "infinite group", "anchors": ["primitive/pedersen/PedersenCommitment.go:Commit,CommitWithR,Verify"]}
{"id": "C19", "title": "Pedersen commitments are binding up to a discrete logarithm", "statement": "Two different openings of one commitment reveal the discrete logarithm of HT with respect to GT; openings with equal randomness have equal values.", "quantifier": "all commitments and pairs of openings", "why_tests_cant": "adversarial openings", "anchors": ["primitive/pedersen/PedersenCommitment.go"]}
{"id": "C20", "title": "Pedersen commitments are homomorphic", "statement": "Add (Sub) of commitments opens to the sum (difference) of values and of randomness.", "quantifier": "all values, randomness, bases", "why_tests_cant": "infinite group", "anchors": ["primitive/pedersen/PedersenCommitment.go:Add,Sub"]}
{"id": "C21", "title": "Re-randomisation keeps the committed reputation", "statement": "Raising a commitment and both bases to the same exponent gives a commitment that opens to the same value and the same randomness under the new bases.", "quantifier": "all commitments, exponents; any number of re-randomisations", "why_tests_cant": "chains of any length", "anchors": ["primitive/pedersen/PedersenCommitment.go:Randomize", "cmd/server/AnonServerHandler.go:handleAnnouncement,handleRoundEnd"]}
{"id": "C22", "title": "Fujisaki-Okamoto point arithmetic", "statement": "Exp and Mul results lie in 0..N-1; for units, Exp follows the laws of exponents for negative exponents too; for a negative exponent of a non-unit the receiver silently keeps its old value.", "quantifier": "all points, exponents (any sign), moduli", "why_tests_cant": "unbounded integers", "anchors": ["primitive/fujiokam/point.go:Mul,Exp,Add,Sub,Equal"]}
{"id": "C23", "title": "Generated Fujisaki-Okamoto parameters are well formed", "statement": "For distinct odd prime factors, the generated H1 is a square and a unit modulo N, and each generated G_i lies in the subgroup generated by H1 with the recorded exponent alpha_i.", "quantifier": "all primes, all random draws", "why_tests_cant": "random 512-bit primes", "anchors": ["primitive/fujiokam/FujiOkamCommitment.go:genH,genGn,CreateBaseFromSuite,sampleZpq"]}
{"id": "C24", "title": "An honest coordinator passes the parameter honesty test", "statement": "For every challenge the answers computed by the coordinator are accepted by the client (result 0) for all six generators.", "quantifier": "all challenges (2^480), parameters, secrets", "why_tests_cant": "2^480 challenges", "anchors": ["primitive/fujiokam/FujiOkamCommitment.go:GenerateAllGnHonestyProof,ChallengeAllGnHonesty,AnswerAllGnHonesty,CheckAllGnHonesty"]}
{"id": "C25", "title": "Passing the honesty test for two challenges proves G_i is generated by H1", "statement": "If for the same published values two challenges that differ in a position of block i are both answered acceptably, then G_i is a power of H1 (the difference of the answers is the exponent).", "quantifier": "all published values, challenges, answers", "why_tests_cant": "adversarial coordinator", "anchors": ["primitive/fujiokam/FujiOkamCommitment.go:CheckGnHonesty,CheckAllGnHonesty"]}
{"id": "C26", "title": "The honesty protocol keeps the coordinator's trapdoors secret", "statement": "Clients talking to the coordinator do not learn alpha_1..alpha_6, so commitments stay binding for them.", "quantifier": "all client strategies over any number of sessions", "why_tests_cant": "needs all interaction histories", "anchors": ["cmd/coordinator/CoordinatorHandler.go:handleGnHonestyChallenge", "primitive/fujiokam/FujiOkamCommitment.go:AnswerAllGnHonesty"]}
{"id": "C27", "title": "Every non-negative integer gets a three-square decomposition", "statement": "For every non-negative x in the supported range the decomposition of 4x+1 returns three numbers whose squares sum to 4x+1 and never reaches its panic.", "quantifier": "every x >= 0 (below the int64 limit)", "why_tests_cant": "Legendre's three-square theorem; x ranges over 2^61 values", "anchors": ["primitive/fujiokam/FujiOkamCommitment.go:decomposeThreeSquareHelper,decomposeThreeSquare"]}
{"id": "C28", "title": "Honest non-negativity arguments are accepted", "statement": "For every non-negative x below the limit of C27, commitment randomness and prover coins, VerifyNonneg accepts the argument made by ProveNonneg.", "quantifier": "all 0 <= x < 2^61 (beyond it the decomposition panics, C27), all coins, all parameters, all hash functions", "why_tests_cant": "infinite coin space", "anchors": ["primitive/fujiokam/FujiOkamCommitment.go:ProveNonnegHelper,VerifyNonnegHelper"]}
{"id": "C29", "title": "A non-negativity argument is only accepted for a commitment to a non-negative value", "statement": "VerifyNonneg accepts an argument for a commitment only if the prover knows an opening to a non-negative integer.", "quantifier": "all commitments and adversarial arguments", "why_tests_cant": "adversarial provers", "anchors": ["primitive/fujiokam/FujiOkamCommitment.go:VerifyNonnegHelper"]}
{"id": "C30", "title": "Honest equality arguments are accepted", "statement": "If a Pedersen and a Fujisaki-Okamoto commitment hide the same value, the argument made by ProveEqual is accepted by VerifyEqual.", "quantifier": "all values, randomness, coins, parameters, hash functions", "why_tests_cant": "infinite spaces", "anchors": ["primitive/pedersen_fujiokam/equality.go:ProveEqual,VerifyEqual"]}
{"id": "C31", "title": "Equality arguments are sound", "statement": "Two accepting equality transcripts with the same first message and different challenges yield one pair of integers that consistently opens (a power of) both commitments.", "quantifier": "all commitments and adversarial transcripts", "why_tests_cant": "adversarial provers", "anchors": ["primitive/pedersen_fujiokam/equality.go:VerifyEqual"]}
{"id": "C32", "title": "A client can always prove an indicator within its reputation", "statement": "If a client's table entry commits to its reputation R with its randomness, then for every ind <= R the request it builds passes VerifyInd at the coordinator and at every server.", "quantifier": "all reputations and indicators that differ by less than 2^61 and less than the group order, all coins, parameters", "why_tests_cant": "infinite spaces", "anchors": ["cmd/client/ClientLauncher.go:requestBridges", "cmd/bridge/bridge.go:VerifyInd"]}
{"id": "C33", "title": "No client can prove an indicator above its reputation", "statement": "VerifyInd accepts a request for ind only if the requester's committed reputation is at least ind.", "quantifier": "all requests, adversarial clients", "why_tests_cant": "adversarial provers", "anchors": ["cmd/bridge/bridge.go:VerifyInd"]}
{"id": "C34", "title": "Ring signatures verify", "statement": "A linkable ring signature made by any ring member verifies, for every ring, message and signer position.", "quantifier": "all rings of any size, messages, signer positions, coins and hash functions, unless the hash of message and ring is 0 modulo P", "why_tests_cant": "unbounded ring size", "anchors": ["primitive/lrs/LinkableRingSignature.go:SignHelper,VerifyHelper"]}
{"id": "C35", "title": "Two ring signatures by one signer are linked", "statement": "Signatures by the same key on the same message and ring are linkable, whatever the coins.", "quantifier": "all keys, rings, messages, coins", "why_tests_cant": "infinite coin space", "anchors": ["primitive/lrs/LinkableRingSignature.go:SignHelper,Linkable"]}
{"id": "C36", "title": "Ring signatures of different signers are not linked", "statement": "Signatures on the same message and ring by two members are linked only if their secret keys are congruent modulo the order of the message's base point.", "quantifier": "all keys, rings, messages, unless the hash of message and ring is 0 modulo P (never linked if it is not 1 or -1 either)", "why_tests_cant": "infinite spaces", "anchors": ["primitive/lrs/LinkableRingSignature.go:SignHelper,Linkable"]}
{"id": "C37", "title": "A ring signature can only be made by a ring member", "statement": "VerifyHelper accepts only signatures that close the ring equation over exactly the ring's n challenges.", "quantifier": "all adversarial signatures", "why_tests_cant": "adversarial byte strings", "anchors": ["primitive/lrs/LinkableRingSignature.go:VerifyHelper"]}
{"id": "C38", "title": "The shuffle picks a permutation", "statement": "For every random stream the index vector computed by Shuffle is a permutation of 0..k-1, and every permutation is reachable.", "quantifier": "all k, all random streams", "why_tests_cant": "k! permutations, all streams", "anchors": ["util/shuffle/pair.go:Shuffle"]}
{"id": "C39", "title": "Shuffling preserves the encrypted list", "statement": "The output pairs are re-encryptions of a permutation of the input pairs; decrypting the output with the private key yields a permutation of the decrypted input.", "quantifier": "all k, inputs, keys, random streams", "why_tests_cant": "unbounded sizes", "anchors": ["util/shuffle/pair.go:Shuffle"]}
{"id": "C40", "title": "Honest shuffle proofs are accepted", "statement": "The proof produced by PairShuffle.Prove for an honest shuffle is accepted by PairShuffle.Verify.", "quantifier": "all k >= 2, inputs, permutations, challenges and coins, except a secret gamma = 0 and a challenge t equal to one of the k permuted exponents (there the prover divides by zero)", "why_tests_cant": "unbounded sizes and coins", "anchors": ["util/shuffle/pair.go:Prove,Verify", "util/shuffle/simple.go:Prove,Verify"]}
{"id": "C41", "title": "Accepted shuffle proofs imply a correct shuffle", "statement": "PairShuffle.Verify accepts only if the output pairs are a re-encryption of a permutation of the input pairs (up to guessing a challenge).", "quantifier": "all adversarial transcripts", "why_tests_cant": "adversarial provers", "anchors": ["util/shuffle/pair.go:Verify"]}
{"id": "C42", "title": "The simple k-shuffle argument is complete and sound", "statement": "SimpleShuffle.Verify accepts honest proofs; conversely accepting answers for two challenges c per t, for more than k values t, force the exponents of Y to be gamma times a permutation of the exponents of X.", "quantifier": "all k, vectors, challenges", "why_tests_cant": "algebra over a 511-bit field", "anchors": ["util/shuffle/simple.go:Prove,Verify,thenc,thver"]}
{"id": "C43", "title": "The two-element shuffle", "statement": "Biffle's outputs satisfy the predicate its verifier checks, and any outputs satisfying that predicate are a re-encryption of a permutation of the inputs.", "quantifier": "all inputs, coins", "why_tests_cant": "infinite group", "anchors": ["util/shuffle/biffle.go:Biffle,bifflePred,bifflePoints,BiffleVerifier"]}
{"id": "C44", "title": "After un-blinding, keys stay bound to their commitments", "statement": "A server's post-shuffle key list is a permutation of its pre-shuffle list and each key carries the same commitment as before, provided keys are distinct.", "quantifier": "all tables with distinct keys, permutations, coins and non-zero blinding factors", "why_tests_cant": "unbounded tables", "anchors": ["cmd/server/AnonServerHandler.go:convertToOrigin,rebindReputation,neffShuffle"]}
{"id": "C45", "title": "Servers form one chain", "statement": "After any number of sequential server registrations, following next hops from the first server visits every server once in registration order and returns to the coordinator; following previous hops from the last server visits them in reverse order.", "quantifier": "all registration sequences", "why_tests_cant": "any number of servers", "anchors": ["cmd/coordinator/CoordinatorHandler.go:handleServerRegister", "cmd/server/AnonServerHandler.go:handleServerRegisterReply,handleUpdateNextHop", "cmd/coordinator/Coordinator.go:GetLastServerAddr,AddServer"]}
{"id": "C46", "title": "Every server contributes to Pedersen's h", "statement": "The final h is the base raised to the product of all servers' secrets.", "quantifier": "all registration schedules", "why_tests_cant": "interleavings of registrations", "anchors": ["cmd/coordinator/CoordinatorHandler.go:handleServerRegister,handleUpdatePedersenH", "cmd/server/AnonServerHandler.go:handleServerRegisterReply"]}
{"id": "C47", "title": "Replies are attributed to the right server", "statement": "GetServerIndex returns the index of the server with that address (-1 for strangers) when addresses are distinct.", "quantifier": "all server lists and addresses", "why_tests_cant": "any list", "anchors": ["cmd/coordinator/Coordinator.go:GetServerIndex"]}
{"id": "C48", "title": "One client per network address", "statement": "After any sequence of client registrations every address is registered for at most one public key, and the most recent registration of an address is the one in force.", "quantifier": "all registration histories and map iteration orders", "why_tests_cant": "all histories and map iteration orders", "anchors": ["cmd/coordinator/Coordinator.go:AddClient"]}
{"id": "C49", "title": "A request gets at most ind bridges, all distinct, all available", "statement": "AssignBridges returns exactly min(ind, number of unused bridges) assignments, with distinct addresses, each previously unused, with the posted provider and the given requester, and marks exactly those as used.", "quantifier": "all bridge tables, indicators, iteration orders", "why_tests_cant": "Go map iteration order is random", "anchors": ["cmd/coordinator/Coordinator.go:GetBridge,GetBridges,AssignBridges"]}
{"id": "C50", "title": "A bridge is handed out once per round", "statement": "In any history of posts, requests, server replies and votes within a round in which no address is posted twice, no bridge address is assigned twice.", "quantifier": "all histories, iteration orders", "why_tests_cant": "unbounded histories", "anchors": ["cmd/coordinator/CoordinatorHandler.go:handlePostBridge,handleRequestBridges,handleGotSignatures"]}
{"id": "C51", "title": "A posted bridge stays credited to its provider", "statement": "Once a participant posted a bridge, no other participant can take over that address's entry or make it assignable again in the same round.", "quantifier": "all histories", "why_tests_cant": "adversarial histories", "anchors": ["cmd/coordinator/Coordinator.go:AddBridge", "cmd/coordinator/CoordinatorHandler.go:handlePostBridge"]}
{"id": "C52", "title": "Posting needs the pseudonym's signature", "statement": "A bridge table entry (address, pseudonym) only appears if a post request with a signature valid under that pseudonym for exactly that address was received; only current participants can post.", "quantifier": "all histories of requests", "why_tests_cant": "adversarial histories", "anchors": ["cmd/coordinator/CoordinatorHandler.go:handlePostBridge"]}
{"id": "C53", "title": "A requester receives each assignment exactly once, fully signed", "statement": "If every server answers once, in whatever order and interleaved with other traffic, the requester gets exactly one delivery per assignment, right after the last server's answer, carrying server i's signature at position i and the coordinator's at the end.", "quantifier": "all answer orders and interleavings, any number of servers and assignments", "why_tests_cant": "all schedules", "anchors": ["cmd/coordinator/CoordinatorHandler.go:handleRequestBridges,handleGotSignatures", "cmd/coordinator/Coordinator.go:InitAssignmentSignatures,AddAssignmentSignature,FinishCollectingAssignmentSignatures"]}
{"id": "C54", "title": "No delivery before every server has signed", "statement": "An assignment is delivered only when all servers have contributed a signature.", "quantifier": "all histories of answers incl. repeated ones", "why_tests_cant": "all schedules with duplicates", "anchors": ["cmd/coordinator/Coordinator.go:AddAssignmentSignature,FinishCollectingAssignmentSignatures"]}
{"id": "C55", "title": "A server signs only what the requester's proof justifies", "statement": "A server signs assignments only if the requester's proof verifies against the server's own table, and never more assignments than the proven indicator.", "quantifier": "all requests", "why_tests_cant": "adversarial coordinator", "anchors": ["cmd/server/AnonServerHandler.go:handleSignAssignments"]}
{"id": "C56", "title": "Votes are tallied exactly", "statement": "After any history of vote messages the recorded difference of every pseudonym equals the sum of the feedbacks of the accepted votes for it, all others being unchanged.", "quantifier": "all histories of votes", "why_tests_cant": "unbounded histories", "anchors": ["cmd/coordinator/CoordinatorHandler.go:handleVote"]}
{"id": "C57", "title": "An assignment is worth one vote of at most one point", "statement": "Each assignment can change its provider's reputation by at most one point per round.", "quantifier": "all histories", "why_tests_cant": "replays and adversarial feedback", "anchors": ["cmd/coordinator/CoordinatorHandler.go:handleVote"]}
{"id": "C58", "title": "The client only ever casts +1 or -1", "statement": "Whatever number the user types, the feedback sent is +1 if positive and -1 otherwise, and the signature sent verifies under the client's pseudonym.", "quantifier": "all inputs, client states", "why_tests_cant": "all ints", "anchors": ["cmd/client/ClientLauncher.go:sendVote"]}
{"id": "C59", "title": "Outsiders cannot vote", "statement": "A vote whose pseudonym is not in the round's key list, or whose overall signature does not verify under it, changes nothing.", "quantifier": "all vote messages and states", "why_tests_cant": "adversarial messages", "anchors": ["cmd/coordinator/CoordinatorHandler.go:handleVote"]}
{"id": "C60", "title": "Every participant finds its own pseudonym and commitment", "statement": "After the announcement chain, for every participant with private key x, g^x occurs in the announced key list and the commitment at that index is the participant's reputation commitment re-randomised consistently with the announced bases; the same table is held by coordinator, servers and clients.", "quantifier": "any number of servers, clients, all round keys, exponents and shuffles", "why_tests_cant": "all sizes and coins", "anchors": ["cmd/server/AnonServerHandler.go:handleAnnouncement,handleAnnouncementFinalize", "cmd/coordinator/CoordinatorHandler.go:handleAnnouncement", "cmd/client/ClientHandler.go:handleAnnouncementFinalize"]}
{"id": "C61", "title": "Round end restores long-term keys", "statement": "Sending the announced table back through the chain restores exactly the long-term public keys that entered it, each with its commitment, plus the newly registered ones.", "quantifier": "any number of servers, clients, all coins", "why_tests_cant": "all sizes and coins", "anchors": ["cmd/server/AnonServerHandler.go:handleRoundEnd", "cmd/coordinator/CoordinatorLauncher.go:roundEnd", "cmd/coordinator/CoordinatorHandler.go:handleRoundEnd"]}
{"id": "C62", "title": "Reputation and commitment never drift apart", "statement": "After any number of rounds with arbitrary registrations and votes, every honest client's reputation counter and randomness open its entry in the coordinator's table under the current bases.", "quantifier": "any number of rounds, servers, clients, votes, coins", "why_tests_cant": "induction over unbounded histories", "anchors": ["cmd/coordinator/CoordinatorLauncher.go:roundEnd,announce", "cmd/client/ClientHandler.go:handleRoundEnd,handleBroadcastPedersenRDiff,handleAnnouncementFinalize"]}
{"id": "C63", "title": "A client registered during a round takes part in the next", "statement": "A client that registers during the posting/voting phase is in the next round's table with the starting reputation 5, and its pseudonym computed from the received g equals the key that came out of the server chain.", "quantifier": "all keys, chains, coins", "why_tests_cant": "any number of servers", "anchors": ["cmd/coordinator/CoordinatorHandler.go:handleClientRegisterControllerSide,handleClientRegisterServerSide", "cmd/server/AnonServerHandler.go:handleClientRegisterServerSide", "cmd/client/ClientHandler.go:handleInitPedersenR"]}
{"id": "C64", "title": "Clients can register at any time", "statement": "README: a client can be launched at any time after server configuration; whatever the phase, it eventually takes part consistently.", "quantifier": "all phases / schedules", "why_tests_cant": "all interleavings", "anchors": ["cmd/coordinator/CoordinatorHandler.go:handleClientRegisterControllerSide", "cmd/coordinator/CoordinatorLauncher.go:clearBuffer,roundEnd"]}
{"id": "C65", "title": "Every counted vote reaches both the counter and the commitment", "statement": "A vote that is accepted in a round changes the provider's committed reputation and the provider's own counter by the same amount, whenever it arrives.", "quantifier": "all arrival times relative to the round-end exchange", "why_tests_cant": "interleaving of two goroutines", "anchors": ["cmd/coordinator/CoordinatorLauncher.go:roundEnd", "cmd/coordinator/CoordinatorHandler.go:handleVote,handleRoundEnd"]}
{"id": "C66", "title": "Bad requests cannot take the coordinator down", "statement": "A malformed or unauthenticated request never terminates the coordinator.", "quantifier": "all messages", "why_tests_cant": "adversarial byte strings", "anchors": ["cmd/coordinator/CoordinatorHandler.go", "util/Util.go:CheckErr"]}
{"id": "C67", "title": "A server that tampers with the table is caught by its successor", "statement": "If a server forwards keys or commitments that are not a permutation of what it received (re-keyed), the next server's verification panics.", "quantifier": "all adversarial server outputs", "why_tests_cant": "adversarial messages", "anchors": ["cmd/server/AnonServerHandler.go:verifyNeffShuffle,handleAnnouncement,handleRoundEnd"]}
{"id": "C68", "title": "The client refuses indicators above its reputation and never sends a request it cannot prove", "statement": "requestBridges sends nothing when ind exceeds the local reputation; otherwise the prover is called with a non-negative difference.", "quantifier": "all client states and inputs", "why_tests_cant": "all ints", "anchors": ["cmd/client/ClientLauncher.go:requestBridges"]}
{"id": "C69", "title": "Rounds progress through the phases in order", "statement": "With an empty server list announce and roundEnd advance the status themselves; with servers the status becomes MESSAGE exactly when the announcement returns to the coordinator and READY_FOR_NEW_ROUND exactly when the round end returns.", "quantifier": "all histories of messages", "why_tests_cant": "all schedules", "anchors": ["cmd/coordinator/CoordinatorLauncher.go:announce,roundEnd,Launch", "cmd/coordinator/CoordinatorHandler.go:handleAnnouncement,handleRoundEnd"]}
{"id": "C70", "title": "Pseudonyms of different rounds are unlinkable", "statement": "Without the servers' round keys nobody can link a client's pseudonyms of two rounds or link a pseudonym to a network address.", "quantifier": "all observers", "why_tests_cant": "computational indistinguishability (DDH)", "anchors": ["cmd/server/AnonServerHandler.go:handleAnnouncement"]}
{"id": "C71", "title": "A client's reputation is exactly what was voted for it", "statement": "Between two rounds, a client's reputation counter is the starting credit 5 plus the feedback of every vote ever accepted for any of its pseudonyms; during a round it is the same sum without the votes of the running round.", "quantifier": "all histories: any number of rounds, servers, clients, votes and coins", "why_tests_cant": "sum over unbounded histories, pseudonyms change every round", "anchors": ["cmd/coordinator/CoordinatorHandler.go:handleVote,handleRoundEnd,handleAnnouncement", "cmd/coordinator/CoordinatorLauncher.go:roundEnd", "cmd/client/ClientHandler.go:handleRoundEnd"]}
{"id": "C72", "title": "Everyone works with the coordinator's parameters", "statement": "The coordinator's Fujisaki-Okamoto parameters, honesty values and key pair never change. Every server holds exactly these parameters, and every client exactly these parameters, the honesty test's public values and the coordinator's public key, unless its registration is still under way, in which case it holds none.", "quantifier": "all runs of the whole system (any schedule, any number of processes, rounds and coins), for well-formed parameters", "why_tests_cant": "all interleavings of registrations with everything else", "anchors": ["cmd/coordinator/CoordinatorHandler.go:handleServerRegister,handleClientRegisterServerSide", "cmd/server/AnonServerHandler.go:handleServerRegisterReply", "cmd/client/ClientHandler.go:handleRegisterConfirmation"]}
{"id": "C73", "title": "An honest bridge request is served whenever it arrives in its round", "statement": "A client that takes part in the round and asks for at most its reputation sends one request; whenever it arrives in the same round the coordinator assigns exactly min(indicator, unused bridges) distinct unused bridges to it and asks every server; whenever that question arrives at a server in the same round, the server answers with success and its signatures on exactly these assignments.", "quantifier": "all orderly histories, all rounds, all participants, indicators, coins, delays and interleavings within the round; the reputation exceeds the indicator by less than 2^61 and less than the group order", "why_tests_cant": "arbitrary traffic between sending and arrival, and cryptographic completeness across three processes", "anchors": ["cmd/client/ClientLauncher.go:requestBridges", "cmd/coordinator/CoordinatorHandler.go:handleRequestBridges", "cmd/server/AnonServerHandler.go:handleSignAssignments", "cmd/bridge/bridge.go:VerifyInd"]}
{"id": "C74", "title": "An honest post is accepted whenever it arrives in its round", "statement": "A post sent by any client in a round, whenever it arrives in the same round, makes the address an available bridge of the client's pseudonym and changes nothing else.", "quantifier": "all orderly histories, rounds, clients (also ones that just registered), addresses and delays within the round", "why_tests_cant": "arbitrary traffic between sending and arrival", "anchors": ["cmd/client/ClientLauncher.go:postBridge", "cmd/coordinator/CoordinatorHandler.go:handlePostBridge"]}
{"id": "C75", "title": "An honest vote is counted whenever it arrives in its round", "statement": "A vote by a participant on an assignment it holds with the signatures of all servers and of the coordinator, whenever it arrives in the same round, changes the provider's tally by exactly one point in the direction asked for, and nothing else.", "quantifier": "all orderly histories, rounds, participants, feedbacks and delays within the round; no signature has response 0", "why_tests_cant": "arbitrary traffic between sending and arrival", "anchors": ["cmd/client/ClientLauncher.go:sendVote", "cmd/coordinator/CoordinatorHandler.go:handleVote"]}
{"id": "C76", "title": "No client turns away from an honest coordinator", "statement": "When the coordinator made its Fujisaki-Okamoto parameters honestly, then in every run of the whole system every honesty challenge under way reaches the coordinator, which answers it to the challenger, and every answer under way is accepted by the client it reaches: the client neither stops nor changes state.", "quantifier": "all runs of the whole system (any number of servers and clients, any delivery order, orderly or not), all honest parameters, all 480-bit challenges", "why_tests_cant": "any interleaving of registrations, challenges and other traffic", "anchors": ["cmd/client/ClientHandler.go:handleHonestyAnswer", "cmd/coordinator/CoordinatorHandler.go:handleHonestyChallenge", "primitive/fujiokam/FujiOkamCommitment.go:AnswerAllGnHonesty"]}
{"id": "C77", "title": "Every message has a recipient that understands it", "statement": "No two processes share an address, and every message under way was sent by a process that has been launched and is addressed to a process that has been launched and has a handler for this kind of message: nothing is sent to an address where nobody listens, and nothing is dropped as an unknown event.", "quantifier": "all runs of the whole system (any number of servers and clients, any schedule, orderly or not)", "why_tests_cant": "the destinations depend on the registration order and on addresses kept in maps over many messages", "anchors": ["cmd/coordinator/CoordinatorHandler.go:Handle", "cmd/server/AnonServerHandler.go:Handle", "cmd/client/ClientHandler.go:Handle", "util/Util.go:SendEvent"]}
{"id": "C78", "title": "Orderly runs are not stopped", "statement": "As long as the operators and participants keep to the protocol's timing, the coordinator's main loop never panics, no process panics on a message that belongs to a registration or to a table of a round (unless the coins of an honest shuffle proof are unlucky), and no client panics on any message at all from an honest coordinator.", "quantifier": "all orderly runs of the whole system, all next deliveries, all coins of the receiver", "why_tests_cant": "must hold in every reachable state, for every delivery order, number of participants and history of rounds", "anchors": ["cmd/coordinator/CoordinatorLauncher.go:Launch", "cmd/coordinator/CoordinatorHandler.go:Handle", "cmd/server/AnonServerHandler.go:Handle", "cmd/client/ClientHandler.go:Handle"]}
{"id": "C79", "title": "Rounds make progress", "statement": "When no bridge, request, signature or vote is under way, the deliveries of what is under way come to an end in whatever order messages arrive; they can go on until nothing is under way (unless an honest shuffle proof had unlucky coins); and then a coordinator that was waiting for its announcement has an open round, and one that was waiting for a round to be settled can begin the next one.", "quantifier": "all orderly runs of the whole system with an honest coordinator, all delivery orders, all coins, any number of servers and clients", "why_tests_cant": "a liveness claim: termination and absence of deadlock over all schedules", "anchors": ["cmd/coordinator/CoordinatorLauncher.go:Launch", "cmd/coordinator/CoordinatorHandler.go:handleAnnouncement", "cmd/coordinator/CoordinatorHandler.go:handleRoundEnd", "cmd/server/AnonServerHandler.go:handleAnnouncement", "cmd/server/AnonServerHandler.go:handleRoundEnd"]}
{"id": "C80", "title": "Bridges are assigned only to proven requests", "statement": "The coordinator gives a bridge (or asks the servers to sign an assignment) in response to a request only if the request is signed for its pseudonym, names a pseudonym of the current round together with that pseudonym's published reputation commitment, and carries an accepted proof for its indicator; any other request changes nothing and sends nothing. An accepted request splits the published commitment into one to exactly its indicator, with disclosed randomness, and a rest for which both of its arguments verify (what this does not say about the reputation itself: C33).", "quantifier": "all coordinator states and histories, all requests (forged or not), all map orders and coins", "why_tests_cant": "must hold for every forged or malformed request in every reachable state of the coordinator", "anchors": ["cmd/coordinator/CoordinatorHandler.go:handleRequestBridges", "cmd/bridge/bridge.go:VerifyInd"]}
{"id": "C81", "title": "Clients hold only assignments signed by their coordinator", "statement": "Every assignment a client holds was delivered in this round in a message signed with the key that the last registration confirmation announced, and carries the servers' signatures of that message; every vote of a client is about an assignment it holds, with the signatures it came with.", "quantifier": "all histories of a client: all sequences of messages from anybody, all commands", "why_tests_cant": "an invariant over all message histories, including forged messages", "anchors": ["cmd/client/ClientHandler.go:handleGotSignatures", "cmd/client/ClientHandler.go:handleRegisterConfirmation", "cmd/client/ClientHandler.go:handleRoundEnd", "cmd/client/ClientLauncher.go:sendVote"]}
{"id": "C82", "title": "Clients use only tested parameters", "statement": "A client sends no request made with the coordinator's parameters before they have passed the honesty test, and parameters with a generator that is not a power of the base are refused.", "quantifier": "all histories of a client, all parameters, all challenges", "why_tests_cant": "an ordering property over all histories, and a count over all challenges", "anchors": ["cmd/client/ClientHandler.go:handleRegisterConfirmation", "cmd/client/ClientHandler.go:handleGnHonestyAnswer", "cmd/client/ClientLauncher.go:requestBridges", "primitive/fujiokam/fujiokam.go:CheckAllGnHonesty"]}
{"id": "C83", "title": "Typed commands do what they say", "statement": "At the client, `get i`, `vote m f`, `post a` and `exit` do exactly the request, vote, post or exit with the numbers that were typed, for all numbers of 64 bits; lines of less than 4096 bytes are executed one by one in the order typed.", "quantifier": "all client states, all numerals, addresses and sequences of lines", "why_tests_cant": "ranges over all input lines and numerals, including 64-bit boundaries", "anchors": ["cmd/client/ClientLauncher.go:Launch"]}
{"id": "C84", "title": "Mistyped commands do nothing", "statement": "A line that is not a well-formed command sends nothing and leaves the client running.", "quantifier": "all client states, all lines", "why_tests_cant": "ranges over all input lines", "anchors": ["cmd/client/ClientLauncher.go:Launch"]}
{"id": "C85", "title": "The role given on the command line is the one started", "statement": "Each role starts when its name or number is given as the single argument, and anything that is not a role starts nothing.", "quantifier": "all argument lists", "why_tests_cant": "ranges over all argument lists", "anchors": ["cmd/main.go:main"]}
{"id": "C86", "title": "Assignments that clients hold are completely signed", "statement": "Every bridge assignment that a client holds carries one signature of each registered server, in the order of registration, followed by the coordinator's, and every one of them is about this very assignment.", "quantifier": "all orderly histories of the whole system, all clients, all assignments they hold at any time", "why_tests_cant": "signatures of different servers, requests, posts and clients interleave in unboundedly many ways", "anchors": ["cmd/coordinator/CoordinatorHandler.go:handleGotSignatures", "cmd/coordinator/CoordinatorHandler.go:handleRequestBridges", "cmd/server/AnonServerHandler.go:handleSignAssignments", "cmd/client/ClientHandler.go:handleGotSignatures"]}
{"id": "C87", "title": "From the assignment to the counted vote", "statement": "Whoever holds an assignment in a round in which they are an old participant can vote with it until the round ends: when the vote arrives, exactly one point, up or down, is added to the provider the assignment names, and nothing else changes.", "quantifier": "all orderly histories, all clients and assignments, all feedback values, all later states of the round", "why_tests_cant": "composes posting, requests, collection of signatures and voting over every interleaving", "anchors": ["cmd/client/ClientLauncher.go:sendVote", "cmd/coordinator/CoordinatorHandler.go:handleVote"]}
{"id": "C88", "title": "An accepted equality argument ties both commitments to one value", "statement": "When the check of an equality argument accepts, the curve-side commitment and the integer-side commitment that it was made about contain the same value.", "quantifier": "all commitments, all arguments, all values", "why_tests_cant": "the forger chooses the argument and the commitments; no sample of honest runs shows what other arguments are accepted", "anchors": ["primitive/pedersen_fujiokam/equality.go:VerifyEqual", "primitive/pedersen_fujiokam/equality.go:ProveEqual"]}
{"id": "C89", "title": "Granted bridges arrive at the requester, completely signed", "statement": "When a client that had registered before the round asks for bridges within its reputation and the request arrives in the round, then as many unused bridges as it asked for (or all unused ones, if fewer) are assigned to it, and once no message about signatures is under way any more the client holds each of these assignments with the signatures of all servers and of the coordinator.", "quantifier": "all orderly histories up to the request and after it, all clients, all indicators within the reputation, all random choices, all orders in which the messages about signatures are delivered; the reputation exceeds the indicator by less than 2^61 and less than the group order", "why_tests_cant": "the collection of signatures of one request interleaves with those of others, with posts, votes, registrations and with the answers of every server in any order", "anchors": ["cmd/client/ClientLauncher.go:requestBridges", "cmd/coordinator/CoordinatorHandler.go:handleRequestBridges", "cmd/coordinator/CoordinatorHandler.go:handleGotSignatures", "cmd/server/AnonServerHandler.go:handleSignAssignments", "cmd/client/ClientHandler.go:handleGotSignatures"]}
{"id": "C90", "title": "Reputation arithmetic never wraps around", "statement": "In every history of fewer than 2^31 events, no reputation, no feedback and no reputation difference, held or under way, leaves the range of a 64-bit integer: computing with wrap-around gives exactly the same histories as computing with unbounded integers. A vote never counts for more than one, and after n events no difference exceeds n and no reputation is further than n*n from its initial value.", "quantifier": "all histories of servers, clients and coordinator, all interleavings, all typed commands", "why_tests_cant": "overflow shows only after histories far longer than any test, and only for particular sequences of votes", "anchors": ["cmd/coordinator/CoordinatorHandler.go:handleVote", "cmd/coordinator/CoordinatorHandler.go:handleRoundEnd", "cmd/client/ClientHandler.go:handleRoundEnd", "cmd/client/ClientLauncher.go:sendVote"]}
{"id": "C91", "title": "The coordinator's two goroutines do not disturb each other", "statement": "The coordinator handles messages while its main loop works. Whatever the interleaving of the two, down to the single messages they send, the coordinator, the servers and the clients end in a state, and every pair of processes exchanges its messages in an order, that also arises when every message is handled at one instant and every section of the main loop (start, new round, end of posting, end of voting) takes place at one instant.", "quantifier": "all interleavings of the main loop, the listener, the servers and the clients, with every single message sent by the coordinator as a separate step", "why_tests_cant": "the windows between two sends are milliseconds wide; a test sees a few of the interleavings", "anchors": ["cmd/coordinator/CoordinatorLauncher.go:Launch", "cmd/coordinator/CoordinatorLauncher.go:roundEnd", "cmd/coordinator/CoordinatorHandler.go:Handle", "cmd/coordinator/CoordinatorHandler.go:handleAnnouncement", "util/Util.go:SendEvent"]}
{"id": "C92", "title": "A process that stops does not make the others inconsistent", "statement": "Processes may stop at any time (killed, left with exit, panicked, or because a process they send to has stopped), also in the middle of a series of messages. For those that have not stopped, everything is as in a run with the same history in which nobody stops and some messages are merely late; so what holds of every process in all runs without failures holds of every process that is still running.", "quantifier": "all runs, all processes, all points at which processes stop, including between two messages of the same section", "why_tests_cant": "the points at which a process can stop are unboundedly many, and each leaves another half-sent set of messages", "anchors": ["util/Util.go:SendEvent", "util/Util.go:CheckErr", "cmd/client/ClientLauncher.go:Launch", "cmd/coordinator/CoordinatorLauncher.go:Launch", "cmd/coordinator/CoordinatorHandler.go:handleGotSignatures", "cmd/coordinator/CoordinatorHandler.go:handleClientRegisterControllerSide"]}
{"id": "C93", "title": "A client may leave", "statement": "When a client leaves (with the command exit, or because it fails), the rounds of the other clients go on: posting and voting end, tables come back from the servers and the next round begins.", "quantifier": "all states in which a registered client has left, and all continuations", "why_tests_cant": "it is a statement about all continuations of a run", "anchors": ["cmd/client/ClientLauncher.go:Launch", "cmd/coordinator/CoordinatorLauncher.go:vote", "cmd/coordinator/CoordinatorLauncher.go:roundEnd", "cmd/coordinator/CoordinatorHandler.go:handleAnnouncement", "cmd/coordinator/CoordinatorHandler.go:handleRoundEnd", "util/Util.go:SendEvent"]}
{"id": "C94", "title": "Every process is reached at the address it gives as its own", "statement": "Whatever coordinators, servers and clients have been started and stopped on the machine before, and whatever ports the operating system hands out or refuses: a running process that has an address is the one that gets the connections to this address, its messages arrive with this address as their source, and no other running process has the same. A coordinator that has been started is found at the configured address until it stops. (With a configured port that is at least 1.)", "quantifier": "all sequences of starting and stopping processes, all ports the operating system gives or refuses, all addresses", "why_tests_cant": "histories of starts and stops are unboundedly many, and ports are chosen by the operating system", "anchors": ["cmd/server/ServerLauncher.go:Launch", "cmd/client/ClientLauncher.go:Launch", "cmd/coordinator/CoordinatorLauncher.go:initCoordinator", "cmd/coordinator/CoordinatorLauncher.go:Launch", "util/Util.go:SendEvent", "util/Util.go:DecodeEvent"]}
{"id": "C95", "title": "Starting one more server does not harm the running system", "statement": "A server that is started gets an address, or it fails without disturbing the processes that are running.", "quantifier": "all sequences of starting and stopping processes, all ports the operating system refuses", "why_tests_cant": "it depends on all that has been started before", "anchors": ["cmd/server/ServerLauncher.go:Launch", "cmd/server/ServerLauncher.go:serverRegister", "util/Util.go:SendEvent", "util/Util.go:DecodeEvent"]}
{"id": "C96", "title": "A server can be stopped and started again", "statement": "When a server is stopped and started again between two rounds, or before the first one, and has registered again, the rounds go on.", "quantifier": "all runs of the whole system up to the restart, all continuations", "why_tests_cant": "it is a statement about all continuations of all runs", "anchors": ["cmd/server/ServerLauncher.go:Launch", "cmd/server/ServerLauncher.go:initAnonServer", "cmd/coordinator/CoordinatorHandler.go:handleServerRegister", "cmd/server/AnonServerHandler.go:handleUpdateNextHop", "cmd/server/AnonServerHandler.go:handleAnnouncement"]}
{"id": "C97", "title": "A command acts at one instant", "statement": "A client handles messages while the commands typed at it run. Whatever is handled in the meantime, a command (post, get, vote) sends what it would have sent had it run at one instant, and it does not end the program unless it would have done so at one instant.", "quantifier": "all commands, all clients, all sequences of messages handled meanwhile, all interleavings of the single readings and writings of the client's fields", "why_tests_cant": "the windows between two lines of a command are microseconds wide", "anchors": ["cmd/client/ClientLauncher.go:postBridge", "cmd/client/ClientLauncher.go:requestBridges", "cmd/client/ClientLauncher.go:sendVote", "cmd/client/ClientLauncher.go:startClientListener", "cmd/client/ClientHandler.go:Handle"]}
{"id": "C98", "title": "One line typed by the operator, one phase", "statement": "The coordinator goes on from a phase exactly when its operator has typed a line for it: every wait ends with the next line typed and uses up exactly this line, so n lines end n waits and no wait ends without one.", "quantifier": "all inputs: any number of lines of any length, arriving in any number of pieces, typed ahead or not, from a terminal or a pipe", "why_tests_cant": "how the input is cut into reads is up to the operating system", "anchors": ["cmd/coordinator/CoordinatorLauncher.go:waitKeypress", "cmd/coordinator/CoordinatorLauncher.go:Launch"]}
{"id": "C99", "title": "The primes used are those that were printed", "statement": "Whatever openssl prints when it is asked for a safe prime, the coordinator either stops or works with exactly the number printed.", "quantifier": "all outputs", "why_tests_cant": "all byte strings; a test sees the output of the openssl at hand", "anchors": ["primitive/fujiokam/FujiOkamCommitment.go:genSafePrime512", "primitive/fujiokam/FujiOkamCommitment.go:CreateBaseFromSuite"]}
{"id": "C100", "title": "The servers are fixed once the configuration is finished", "statement": "After the operator has finished the configuration, no server can be added to the cluster any more; what the clients do, the rounds and the order of delivery leave the chain of servers as it is, and the clients' commitments stay good.", "quantifier": "all histories of the whole system after the configuration, any number of servers, clients and rounds; all secrets of the late server", "why_tests_cant": "every point of every history at which a server may be started", "anchors": ["README.md", "cmd/coordinator/CoordinatorHandler.go:handleServerRegister", "cmd/coordinator/CoordinatorHandler.go:handleUpdatePedersenH", "cmd/server/AnonServerHandler.go:handleServerRegisterReply"]}
{"id": "C101", "title": "A client's reputation and place in the table are known to the client alone", "statement": "The commitments and proofs that a client's reputation goes into tell the coordinator, the servers and the other clients nothing about the reputation, except that it covers the indicator of a request, and nobody can tell which pseudonym of a round belongs to which registered client.", "quantifier": "all reputations, all choices of randomness, all tests of what was seen, all rounds of all orderly histories, all requests", "why_tests_cant": "hiding is a statement about all choices of the randomness; a test sees one of them", "anchors": ["README.md", "primitive/pedersen/PedersenCommitment.go:Commit", "primitive/fujiokam/FujiOkamCommitment.go:Commit", "primitive/pedersen_fujiokam/equality.go:ProveEqual", "cmd/coordinator/CoordinatorHandler.go:handleClientRegisterControllerSide", "cmd/coordinator/CoordinatorLauncher.go:roundEnd", "cmd/client/ClientHandler.go:handleBroadcastPedersenRDiff", "cmd/client/ClientLauncher.go:requestBridges"]}
{"id": "C102", "title": "Every message sent to a process is handled, whole, once and in order", "statement": "Whatever peers do with their connections (write in pieces, at the same time, keep them open, abort them), a process goes on running and handles exactly the messages whose connections were closed by their senders, each whole and once, in the order of the connections.", "quantifier": "all interleavings of connects, writes of any sizes, closes, aborts, reads and garbage collections; all handlers; any number of connections", "why_tests_cant": "every interleaving of peers, reads and the garbage collector", "anchors": ["cmd/coordinator/CoordinatorLauncher.go:startServerListener", "cmd/server/ServerLauncher.go:startAnonServerListener", "cmd/client/ClientLauncher.go:startClientListener", "util/Util.go:SendEvent", "util/Util.go:CheckErr"]}
{"id": "C103", "title": "The Go runtime never stops the coordinator over a map used by two goroutines", "statement": "The coordinator's main loop and its listener share maps without locks. The coordinator is never stopped by the Go runtime's check for concurrent map use: in no execution does one of the two begin to read, range over or write a map while the other is writing it.", "quantifier": "all interleavings of the single map uses and messages of the main loop and the handlers, all inputs and histories of the system", "why_tests_cant": "the window of one map write in every interleaving of two goroutines; the race depends on scheduling", "anchors": ["cmd/coordinator/Coordinator.go:Coordinator", "cmd/coordinator/Coordinator.go:AddClient", "cmd/coordinator/CoordinatorLauncher.go:vote", "cmd/coordinator/CoordinatorLauncher.go:roundEnd", "cmd/coordinator/CoordinatorLauncher.go:announce", "cmd/coordinator/CoordinatorHandler.go:handleVote", "cmd/coordinator/CoordinatorHandler.go:handleClientRegisterControllerSide"]}
{"id": "C104", "title": "A server may stop", "statement": "When a server stops (because it is killed or fails), the rounds of the others go on: tables come back from the servers, clients are told that the round has ended, and the next round begins.", "quantifier": "all states in which nothing is under way and one server has stopped, all servers, and all continuations, in which further processes may stop", "why_tests_cant": "it is a statement about all continuations of a run and all servers of chains of any length", "anchors": ["cmd/server/AnonServerHandler.go:handleAnnouncement", "cmd/server/AnonServerHandler.go:handleRoundEnd", "cmd/coordinator/CoordinatorLauncher.go:announce", "cmd/coordinator/CoordinatorLauncher.go:roundEnd", "cmd/coordinator/CoordinatorHandler.go:handleAnnouncement", "cmd/coordinator/CoordinatorHandler.go:handleRoundEnd", "util/Util.go:SendEvent"]}
{"id": "C105", "title": "Processes do not wait for each other for ever", "statement": "A process sends its messages from within the handler of the message it has accepted, and accepts nothing meanwhile. However the system is used, the processes do not block each other: a process that has a message to send gets to send it, and a message that has been sent gets accepted, whatever room the operating system has for connections that have not been accepted.", "quantifier": "all bounds on the number of connections that may wait at a process, all orders in which messages are sent and accepted, all numbers of clients", "why_tests_cant": "it depends on the number of connections that wait at each process at the same time, over all schedules and any number of clients", "anchors": ["util/Util.go:SendEvent", "cmd/coordinator/CoordinatorLauncher.go:startServerListener", "cmd/server/ServerLauncher.go:startAnonServerListener", "cmd/client/ClientLauncher.go:startClientListener", "cmd/coordinator/CoordinatorHandler.go:handleClientRegisterControllerSide", "cmd/server/AnonServerHandler.go:handleClientRegisterServerSide"]}
{"id": "C106", "title": "An event arrives as it was sent", "statement": "The receiver of an event gets the type, under each key the value and the kind of value, nothing under other keys, and the address of the sender that the sender gave to SendEvent, in whatever order Go walks through the map of parameters, and however the bytes are cut into pieces on the way. If the sender is stopped before it has written all of the event, what it has written is refused and never taken for an event. An event is sent unless its parameters have 4 gigabytes or more.", "quantifier": "all event types and parameters (byte strings, integers of 64 bits, strings, truth values, nil; any keys, each at most once), all orders of the map, all IPv4 addresses and ports, all type numbers and descriptions gob may use that the receiver accepts, all proper prefixes", "why_tests_cant": "it ranges over all byte strings and integers, all orders of maps and all points at which the transmission may end", "anchors": ["util/Util.go:Encode", "util/Util.go:SendEvent", "util/Util.go:DecodeEvent", "proto/Event.go:Event", "cmd/coordinator/CoordinatorLauncher.go:startServerListener"]}
{"id": "C107", "title": "Lists, numbers, proofs and assignments arrive as they were sent", "statement": "What one process encodes (lists of points, secrets, bits, integers, big numbers and byte strings, big numbers, non-negativity and equality proofs, assignments) and another decodes is the same value, with the elements in the same order, signs and zeros included. Whatever bytes are decoded as a list of points or an assignment, only members of the group come out.", "quantifier": "all values with encodings of less than 8 gigabytes; lists of byte strings of at most 357 million and of integers and big numbers of at most 1073 million elements; points that are members of the group; for the last sentence all byte strings", "why_tests_cant": "it ranges over all lists and all numbers of any size and sign", "anchors": ["util/Util.go:Encode2DByteArray", "util/Util.go:Decode2DByteArray", "util/Util.go:EncodeBigInt", "util/Util.go:ProtobufEncodeBigIntList", "util/Util.go:ProtobufEncodeBoolList", "util/Util.go:EncodeARGnonneg", "util/Util.go:EncodeARGequal", "util/Util.go:EncodeIntArray", "util/Util.go:ProtobufEncodePointList", "util/Util.go:ProtobufEncodeSecretList", "cmd/bridge/bridge.go:EncodeAssignment", "cmd/bridge/bridge.go:DecodeAssignment"]}
{"id": "C108", "title": "What is sent as bytes acts like the message itself", "statement": "Every message of the system (each kind of event with its named and typed parameters) that one process writes to a connection, read from these bytes by the handlers of coordinator, server or client, has exactly the effect that the message would have had if it had been handed over as it is: the same new state, the same answers, or the same crash, in every state of the receiver, whether or not the message was meant for it, and in whatever order the parameters were written. Hence every run of the processes with bytes on the network is a run of the processes with messages on the network, with the same states and the same order, and every run whose messages can be encoded is a run with bytes: whatever holds of the processes in all runs with messages holds in all runs with bytes.", "quantifier": "all messages with integers of 64 bits, IPv4 addresses, lists of less than 2^30 elements; all descriptions of the types that receivers accept, all orders of the parameters, all states of the receivers, all group sizes below 2^(2^67), all runs of any length with any number of processes; the challenges in the proofs of shuffles may be any function of the bytes written before", "why_tests_cant": "it ranges over all messages, orders of map entries, states and interleavings; a wrong name or type of one parameter would only show in the one handler that reads it", "anchors": ["proto/Event.go:Event", "proto/EventType.go", "util/Util.go:SendEvent", "cmd/coordinator/CoordinatorHandler.go:Handle", "cmd/server/AnonServerHandler.go:Handle", "cmd/client/ClientHandler.go:Handle", "cmd/coordinator/CoordinatorLauncher.go:roundEnd", "cmd/client/ClientLauncher.go:requestBridges", "cmd/server/ServerLauncher.go:serverRegister"]}
{"id": "C109", "title": "Shuffle proofs survive being written as bytes", "statement": "The verifier of a shuffle judges the bytes of a proof exactly as it judges the proof: whatever HashProve writes for an honest shuffle is accepted by HashVerify with the shuffle's outputs, and bytes are accepted exactly if they begin with the bytes of an accepted proof for this number of pairs. The bytes determine every element of the proof. A proof that is cut off anywhere is refused, bytes appended to a proof change nothing, and no bytes make the verifier panic if the lists are equally long.", "quantifier": "all byte strings, all proofs (honest or not), all numbers of pairs of at least 2, all groups, and all functions that turn the bytes written so far into challenges; for honest proofs the coin gamma = 0 and a challenge that hits one of the prover's exponents are excluded as in C40", "why_tests_cant": "it ranges over all byte strings and all sizes; a vector read with a wrong length or in a wrong order shows only for some sizes", "anchors": ["util/shuffle/pair.go:PairShuffle.Prove,PairShuffle.Verify,Verifier", "util/shuffle/simple.go:SimpleShuffle.Prove,SimpleShuffle.Verify", "cmd/server/AnonServerHandler.go:verifyNeffShuffle,handleAnnouncement,handleRoundEnd"]}
{"id": "C110", "title": "The formats in use give back what was put in, so the guarantees carry over to them", "statement": "Everything that is guaranteed for processes that exchange messages, whatever the formats are, as long as what is written is read again, holds for processes that write and read with gob and protobuf: lists of byte strings, the two arguments of a request and assignments are read as they were written whenever the bytes fit into memory, and an assignment that is read names members of the group.", "quantifier": "all descriptions of types that readers accept, all hash functions and challenges, all square root functions, all values whose encoding has less than 2^64 bytes (and lists below 2^33/24 elements), all runs", "why_tests_cant": "it ranges over all values and all runs, and it is a statement about the assumptions of all other guarantees at once", "anchors": ["util/Util.go:Encode2DByteArray", "util/Util.go:Decode2DByteArray", "util/Util.go:EncodeARGnonneg", "util/Util.go:EncodeARGequal", "cmd/bridge/bridge.go:EncodeAssignment", "cmd/bridge/bridge.go:DecodeAssignment"]}
{"id": "C111", "title": "Messages that travel in pieces over connections do what whole messages do", "statement": "However the bytes of messages are cut into pieces, and however the processes' connecting, writing, closing, accepting and reading interleave, the processes go through the same states as if every message were delivered whole at once, and between any two processes the messages under way are the same, in the same order; conversely everything that can happen with whole messages can happen over connections. The transport never goes on forever, and when it has come to rest every listening process to which something is under way has a whole message in its buffer, exactly as it was sent, which it handles next.", "quantifier": "all runs of the whole system over connections, all ways to cut messages into pieces, all interleavings; connections are not aborted and there is room for all of them (C102, C105 are about what happens otherwise)", "why_tests_cant": "it ranges over all interleavings of all processes and all ways to split every message; tests on one machine see nearly always one piece", "anchors": ["util/Util.go:SendEvent", "cmd/coordinator/CoordinatorLauncher.go:startServerListener", "cmd/server/ServerLauncher.go:startAnonServerListener", "cmd/client/ClientLauncher.go:startClientListener"]}
{"id": "C112", "title": "A ring signature does not show which member made it", "statement": "Whatever is asked about a ring signature, the chance of each answer depends on the message, the ring and the signature's tag only, not on which member signed, with which key, or at which position: with fair draws a member makes each of the signatures that verify and carry its tag with the same chance, and no other.", "quantifier": "all rings of any size, messages, signer positions, keys, hash functions and questions about the signature, unless the hash of message and ring is 0 modulo P", "why_tests_cant": "it is about the chances over all draws of random numbers; a test sees one draw", "anchors": ["primitive/lrs/LinkableRingSignature.go:SignHelper,VerifyHelper,pickZq"]}
{"id": "C113", "title": "Ring signatures survive being written as bytes", "statement": "A ring signature that was written as bytes is read back as it was, whatever its numbers are and whatever follows the bytes; cut-off bytes are refused; and a signature that a ring member makes can always be written, read by another process and verified there.", "quantifier": "all signatures with up to 2^30 answers and challenges of any size and sign; all ways gob may describe the type; all rings up to the size of 2^33 bytes that gob can send", "why_tests_cant": "unbounded numbers and rings", "anchors": ["primitive/lrs/Encoding.go:ProtobufEncodeSignature,ProtobufDecodeSignature"]}
{"id": "C114", "title": "A ring member cannot sign twice without being noticed", "statement": "Whatever a member of the ring does, any two signatures on the same message and ring that it makes with its secret and that are accepted are linked.", "quantifier": "all rings, messages, members and ways to compute signatures", "why_tests_cant": "it is about everything a dishonest signer may send", "anchors": ["primitive/lrs/LinkableRingSignature.go:VerifyHelper,Linkable"]}
{"id": "C115", "title": "Proofs of a two-element shuffle", "statement": "The proof of an honest two-element shuffle is accepted whatever random numbers are drawn, and it shows neither the order nor the blinding factors; a proof is accepted only if the outputs are re-encryptions of the two inputs in one of the two orders (up to guessing a challenge).", "quantifier": "all inputs and outputs in the group, random numbers, hash functions, and everything a cheating prover may send", "why_tests_cant": "it is about every proof a cheat might construct, and about distributions", "anchors": ["util/shuffle/biffle.go:Biffle,BiffleVerifier,bifflePred,bifflePoints,BiffleTest"]}
{"id": "C116", "title": "A request tells nothing about the reputation but that it is at least the indicator", "statement": "For any two reputations at least as large as the indicator, what a server sees of a request for bridges (commitments, the argument of non-negativity, the argument of equality) could equally well have been made for the one as for the other.", "quantifier": "all reputations, indicators, parameters, hash functions and tests a server may apply, over all choices of the client's random numbers", "why_tests_cant": "it compares the distributions of all messages for two inputs", "anchors": ["primitive/fujiokam/FujiOkamCommitment.go:ProveNonnegHelper,genRandomSecret", "primitive/pedersen_fujiokam/equality.go:ProveEqual", "cmd/client/ClientLauncher.go:requestBridges"]}
{"id": "C117", "title": "A client is given no more bridges in a round than its reputation", "statement": "In one round, the bridges assigned to a pseudonym are never more than the reputation behind it (and so never more than the indicators it proved).", "quantifier": "all histories of the coordinator: any messages, repeated any number of times, from any senders", "why_tests_cant": "it must hold for every sequence of requests, including repeated ones", "anchors": ["cmd/coordinator/CoordinatorHandler.go:handleRequestBridges", "cmd/coordinator/Coordinator.go:AssignBridges"]}
{"id": "C118", "title": "Granted bridges are sent only to whoever asked for them", "statement": "Bridges assigned to a pseudonym are sent to the address from which its owner asked for them, whatever others send.", "quantifier": "all requests, senders, orders of the servers' answers and other traffic", "why_tests_cant": "adversarial senders and all interleavings", "anchors": ["cmd/coordinator/CoordinatorHandler.go:handleRequestBridges,handleGotSignatures", "cmd/coordinator/Coordinator.go:RequesterAddrs"]}
{"id": "C119", "title": "Messages of one round are worthless in other rounds", "statement": "A post, request or vote made in one round has no effect when it arrives in another round, however it was delayed or repeated.", "quantifier": "all messages, pairs of rounds, arrival times and senders", "why_tests_cant": "it ranges over all delays and all recorded messages", "anchors": ["cmd/coordinator/CoordinatorHandler.go:handlePostBridge,handleRequestBridges,handleVote,handleAnnouncement", "cmd/coordinator/CoordinatorLauncher.go:clearBuffer,roundEnd", "util/Util.go:ElGamalVerify"]}
{"id": "C120", "title": "A vote counts for the provider it names and for nobody else", "statement": "When a round ends, every client adds to its reputation exactly what the votes for its own pseudonym of this round add up to; votes for a pseudonym that is nobody's (any more) have no effect on anybody.", "quantifier": "all sets of votes, all orders in which the votes are visited, all clients", "why_tests_cant": "whether a client gets the difference of another one depends on the order in which a map is visited and on votes that only occur when a post is late or comes from a stranger", "anchors": ["cmd/coordinator/CoordinatorHandler.go:handleRoundEnd,handleVote,handlePostBridge", "cmd/client/ClientHandler.go:handleRoundEnd", "util/Util.go:FindIntUsingKeyList,ProtobufEncodePointList"]}
{"id": "C121", "title": "Waiting for messages to settle is enough for correct reputations", "statement": "If clients post, request and vote only during a round when nothing about tables or registrations is under way, and voting is ended only when no message is under way, then every bridge on offer, every assignment and every vote names a participant of the current round, and every client's reputation is exactly what was voted for it, whatever is posted, requested and voted.", "quantifier": "all runs of honest processes with these waits: any number of servers, clients, rounds, messages and any interleaving of them", "why_tests_cant": "it ranges over all interleavings of any number of rounds; a counterexample is a rare order of arrivals (C119, C120)", "anchors": ["cmd/coordinator/CoordinatorLauncher.go:Launch,roundEnd,announce", "cmd/coordinator/CoordinatorHandler.go:handlePostBridge,handleRequestBridges,handleGotSignatures,handleVote,handleRoundEnd", "cmd/server/AnonServerHandler.go:handleSignAssignments", "cmd/client/ClientHandler.go:handleRoundEnd,handleGotSignatures", "cmd/client/ClientLauncher.go:postBridge,requestBridges,sendVote"]}
{"id": "C122", "title": "Deliveries always come to an end", "statement": "Whatever is under way - tables, registrations, bridges, requests, signatures, votes - only finitely many messages can arrive before somebody gives a command or the coordinator's operator acts; no exchange of messages keeps itself going.", "quantifier": "all states that orderly runs of any number of servers, clients and rounds reach, all orders in which messages arrive, all coins", "why_tests_cant": "a loop of messages shows up only as a test that does not stop, and only for the order of arrivals that causes it", "anchors": ["cmd/coordinator/CoordinatorHandler.go:Handle,handleRequestBridges,handleGotSignatures", "cmd/server/AnonServerHandler.go:Handle,handleSignAssignments,handleAnnouncement,handleRoundEnd", "cmd/client/ClientHandler.go:Handle"]}
{"id": "C123", "title": "Who waits for the messages to settle is not stopped and does not wait for ever", "statement": "If the coordinator's parameters are honest and everybody waits for messages to settle (as in C121), then no process is stopped by a message it receives, whatever is posted, requested and voted, and the messages under way can always go on arriving until nothing is under way and the coordinator waits for its operator; the only exception is a table whose shuffle proof was made with coins that hit a zero.", "quantifier": "all runs of honest processes with these waits: any number of servers, clients, rounds, messages and any interleaving of them, all coins of the receivers", "why_tests_cant": "a panic or a deadlock needs one particular order of arrivals or one particular content of a message; tests cover a few", "anchors": ["cmd/coordinator/CoordinatorHandler.go:handlePostBridge,handleRequestBridges,handleGotSignatures,handleVote,handleHonestyChallenge", "cmd/server/AnonServerHandler.go:handleSignAssignments", "cmd/client/ClientHandler.go:handleGotSignatures,handleRoundEnd,handleAnnouncementFinalize", "cmd/coordinator/CoordinatorLauncher.go:Launch"]}
{"id": "C124", "title": "Waiting, and posting no address twice in a round, is enough to get and use bridges", "statement": "If everybody waits for messages to settle (as in C121) and no address is posted twice in one round, then no address is posted while signatures about it are collected, and every request under way comes from the client whose pseudonym it names. A client that had registered when the round was announced and asks for n bridges within its reputation holds, as soon as nothing is under way any more in that round, min(n, bridges unused when the request arrived) different bridges that were unused until then, each assigned to its pseudonym and with the signatures of all servers and of the coordinator; and it can vote with each, which counts exactly one point for the provider. The only exceptions are signatures whose response happens to be 0 (C11).", "quantifier": "all runs of honest processes with these waits: any number of servers, clients, rounds, posts, requests and votes, any interleaving of deliveries, all coins", "why_tests_cant": "whether signatures of two collections are mixed or a delivery goes to the wrong client depends on the order in which posts, requests and signatures of several clients arrive", "anchors": ["cmd/client/ClientLauncher.go:postBridge,requestBridges,sendVote", "cmd/coordinator/CoordinatorHandler.go:handlePostBridge,handleRequestBridges,handleGotSignatures,handleVote", "cmd/server/AnonServerHandler.go:handleSignAssignments", "cmd/client/ClientHandler.go:handleGotSignatures"]}
{"id": "C125", "title": "Reputation is earned by the posters of bridges, and by nobody else", "statement": "If everybody waits for messages to settle (as in C121) and no address is posted twice in one round, then during a round the coordinator's list consists of the bridges posted in this round whose posts have arrived, each under the pseudonym of the client who posted it; every assignment a client holds in a quiet moment of a round names as provider the one client who posted its address in this round; and the reputation of every client, in a quiet moment between rounds, is 5 plus the sum of the feedback of the counted votes that were about addresses it had itself posted in the round of the vote (in a quiet moment of a round, the votes of this round are still to be added). Votes about bridges of others never change it. Whoever has never posted a bridge has 5 in every quiet moment, whether or not others post an address twice in a round; and even then every bridge listed or assigned is credited to a client that has posted this address in this round.", "quantifier": "all runs of honest processes with these waits: any number of servers, clients, rounds, posts, requests and votes, any interleaving of deliveries, all coins", "why_tests_cant": "whether a vote is credited to the client who posted the bridge depends on pseudonyms that change every round, on the list kept across the messages of all clients, and on the order in which posts, requests, signatures and votes arrive", "anchors": ["cmd/client/ClientLauncher.go:postBridge,requestBridges,sendVote", "cmd/coordinator/CoordinatorHandler.go:handlePostBridge,handleRequestBridges,handleGotSignatures,handleVote", "cmd/server/AnonServerHandler.go:handleSignAssignments", "cmd/client/ClientHandler.go:handleGotSignatures,handleRoundEnd"]}
{"id": "C126", "title": "In a quiet round every command is carried out", "statement": "When nothing is under way in a round (and, for requests and votes, everybody has waited for messages to settle and posted no address twice in a round): a post is the next message that arrives, and then the whole system is as before, except that the bridge is listed, unused, under the poster's pseudonym; a request for n bridges within the reputation of a client that had registered when the round was announced never panics, leads to a bounded number of messages whatever their order and the coins, can always go on until nothing is under way, and then the client holds min(n, unused bridges) different unused bridges with all signatures; a vote with an assignment held is the next message that arrives, and then the whole system is as before except for one point, up or down, for the client who posted the bridge and nobody else. The only exceptions are signatures whose response happens to be 0 (C11).", "quantifier": "all such states of all runs of honest processes with these waits: any number of servers, clients, rounds, earlier posts, requests and votes, any interleaving of deliveries, all coins", "why_tests_cant": "it is a statement about every reachable state, every order of arrival of the messages of all servers, and all coins; a test shows one order", "anchors": ["cmd/client/ClientLauncher.go:postBridge,requestBridges,sendVote", "cmd/coordinator/CoordinatorHandler.go:handlePostBridge,handleRequestBridges,handleGotSignatures,handleVote", "cmd/server/AnonServerHandler.go:handleSignAssignments", "cmd/client/ClientHandler.go:handleGotSignatures"]}
{"id": "C127", "title": "A posted bridge moves its poster's reputation by at most one point", "statement": "A posted bridge is handed to at most one client in its round, and moves the reputation of its poster by at most one point: between rounds the reputation of a client differs from 5 by no more than the number of bridges it has posted, and from its reputation at any earlier time between rounds by no more than the number posted since. (False of the code unless the holder of an assignment uses it for one vote only: nothing makes a client or the coordinator count the votes of an assignment, so the holder can move the poster's reputation by any number of points; proved when everybody waits for messages to settle, posts no address twice in a round and votes once about an address in a round.)", "quantifier": "all runs of honest processes with these waits: any number of servers, clients, rounds, posts, requests and votes, any interleaving of deliveries, all coins", "why_tests_cant": "the bound must hold for every history of votes and posts of all clients over any number of rounds; a test fixes the history and would not show that a vote can be repeated without limit", "anchors": ["cmd/coordinator/CoordinatorHandler.go:handleRequestBridges,handleGotSignatures,handleVote", "cmd/client/ClientLauncher.go:postBridge,requestBridges,sendVote", "cmd/client/ClientHandler.go:handleGotSignatures,handleRoundEnd"]}
{"id": "C128", "title": "A client's reputation is the judgement of others", "statement": "The votes that move a client's reputation are votes of other clients: whoever votes about a bridge has asked for bridges in this round and is not the client who posted the bridge. (False of the code: nothing keeps a client from being assigned its own bridge. A client that posts a bridge when no other is left, asks for one and votes can raise its own reputation by any number of points in one round, alone. Proved: holders have asked in this round; and votes come from others if no client asks for bridges in a round in which it posts.)", "quantifier": "all runs of honest processes with waits for messages to settle, whatever addresses are posted: any number of servers, clients, rounds, posts, requests and votes, any interleaving of deliveries, all coins", "why_tests_cant": "that nobody ever receives and judges their own bridge must hold for every history of posts, requests and votes and every choice of the coordinator; a test fixes one history", "anchors": ["cmd/coordinator/Coordinator.go:GetBridges", "cmd/coordinator/CoordinatorHandler.go:handleRequestBridges,handleGotSignatures,handleVote", "cmd/client/ClientLauncher.go:postBridge,requestBridges,sendVote"]}
{"id": "C129", "title": "Reputation is conserved", "statement": "No point of reputation appears or vanishes except by votes: whenever a round is over, the reputations of all clients together are 5 points for every client plus the sum of all votes that counted since the start; and during a round they are this sum less the votes not yet settled.", "quantifier": "all runs of honest processes with waits for messages to settle, whatever addresses are posted, once or several times: any number of servers, clients, rounds, posts, requests and votes, any interleaving of deliveries, all coins", "why_tests_cant": "that votes are neither lost, nor counted twice, nor given to two clients, whatever the shuffles of the servers and the order of deliveries, is a sum over the whole history; a test checks one history", "anchors": ["cmd/coordinator/CoordinatorHandler.go:handleVote,handleRoundEnd", "cmd/server/AnonServerHandler.go:handleRoundEnd", "cmd/client/ClientHandler.go:handleRoundEnd", "cmd/client/ClientLauncher.go:sendVote"]}
{"id": "C130", "title": "Lost reputation stays lost", "statement": "A participant who has lost points has them missing until others' votes restore them: no command of their own brings them back. (False of the code: in the posting or voting phase anybody can start a client with a new key, and it has 5 points. Proved: nothing done within a round changes the key or the points of a client that stays; and the refutation, for every quiet moment of every run.)", "quantifier": "all runs of honest processes with waits for messages to settle: any number of servers, clients, rounds, posts, requests and votes, any interleaving of deliveries, all coins, all fresh keys and addresses", "why_tests_cant": "that nothing brings points back must hold after every history of rounds and for every command; a test fixes one history", "anchors": ["cmd/client/ClientLauncher.go:register,initClient", "cmd/coordinator/CoordinatorHandler.go:handleClientRegisterControllerSide,handleClientRegisterServerSide", "cmd/server/AnonServerHandler.go:handleClientRegisterServerSide", "cmd/client/ClientHandler.go:handleRegisterConfirmation"]}
{"id": "C131", "title": "A participant hides among all earlier registrations and the fake clients", "statement": "The list of pseudonyms announced in a round consists of the pseudonyms of all fake clients (ten in the code) and of all clients that had registered before the round was announced; each occurs exactly once, and there is no other. Between rounds the coordinator's table has exactly one entry for each of them. So the set a poster, requester or voter hides in has as many members as there are fake clients and clients registered before the round, however many rounds and registrations there were. A fake client enters with the reputation 0.", "quantifier": "all orderly runs (as in C60): any number of servers, clients, rounds, votes and registrations, any number of fake clients with different keys, any interleaving of deliveries, all coins", "why_tests_cant": "a row lost, repeated or added by some history of rounds and registrations makes the set smaller than promised; a test sees one history", "anchors": ["cmd/coordinator/CoordinatorLauncher.go:addFakeClients,announce,roundEnd,Launch", "cmd/coordinator/CoordinatorHandler.go:handleAnnouncement,handleRoundEnd,handleClientRegisterServerSide", "cmd/server/AnonServerHandler.go:handleAnnouncement,handleRoundEnd"]}
{"id": "C132", "title": "The coordinator's records answer for the current phase", "statement": "A vote tag is reported as already used exactly if it was recorded since the voting phase last began. The messages logged since a round was announced are numbered 1, 2, 3, ... in the order they were logged, and the number finds the pseudonym of the poster. The reputation difference reported for a pseudonym is the sum of the votes counted for it in the round, 0 if there is none. The key found under a server's index is the key that server registered, and every vote that counts carries for each index a signature valid under the key found there.", "quantifier": "all histories of a coordinator: any messages from anybody, any phase changes, any calls of the recording methods in any order; for the server keys all runs of the system with any number of servers", "why_tests_cant": "a record kept too long, cleared too early or off by one shows only in some interleaving of calls and phase changes", "anchors": ["cmd/coordinator/Coordinator.go:AddMsgLog,GetReputationDiff,IsLinkableRecord,AddToVoteRecords,ClearVoteRecords,GetServerPublicKey,GetServerIndex", "cmd/coordinator/CoordinatorLauncher.go:announce,startVotePhase", "cmd/coordinator/CoordinatorHandler.go:handleVote"]}
{"id": "C133", "title": "A server may join while a round is under way", "statement": "When a server is started in the posting or voting phase, the round under way is not disturbed: it ends, the table comes back, clients are told, the next round begins, and votes that would have counted before still count. (False of the code: the new server is taken into the chain at once, but has no key map for this round; it panics on the table of the round's end, which never comes back; votes with assignments signed before it came lack its signature. Proved: the refutation, for every run, every registration schedule and every continuation; and that the registration itself leaves phase, table, bridges, tally and clients at the coordinator as they are.)", "quantifier": "all runs of the whole system up to the start of the late server, with any number of servers, clients and rounds; all its secrets; all schedules of its registration; all continuations, in which any process may stop at any time", "why_tests_cant": "that the round never ends is a statement about all continuations; that it ends, about every moment at which a server may be started", "anchors": ["cmd/coordinator/CoordinatorHandler.go:handleServerRegister,handleVote", "cmd/coordinator/CoordinatorLauncher.go:roundEnd", "cmd/server/AnonServerHandler.go:handleRoundEnd,handleServerRegisterReply", "cmd/server/ServerLauncher.go:initAnonServer"]}
{"id": "C134", "title": "A vote signed for the ring of pseudonyms counts once and as cast", "statement": "A vote signed for the ring of the round's pseudonyms (the client's second way to vote) counts once and only as cast: every participant's vote is sent and verifies against the announced list, a second vote of the same participant about the same message is recognised by its tag, another participant's vote is not taken for a second one, nobody who passes a vote on can change the message's number or the direction of the vote, and the coordinator takes it. (False of the code in the last two parts: the signature is over the last 32 bits of the number only, not over the direction; the coordinator is stopped by such a vote. Proved: the other parts, and the refutations.)", "quantifier": "all clients after an announcement and any later messages that tell no new base, all lists of pseudonyms of any length, message numbers, votes, random draws, hash functions (with the stated conditions on one hash value), gob descriptions of the signature type and states of the coordinator", "why_tests_cant": "verification and recognition are algebraic facts about all secrets, draws and lists; that a vote is never taken for another's depends on the order of the base, which samples do not show", "anchors": ["cmd/client/ClientLauncher.go:sendVote2", "primitive/lrs/LinkableRingSignature.go:CreateBase,Sign,Verify", "cmd/client/ClientHandler.go:handleAnnouncementFinalize", "cmd/coordinator/Coordinator.go:AddToVoteRecords,IsLinkableRecord", "cmd/coordinator/CoordinatorHandler.go:handleVote"]}
{"id": "C135", "title": "What is done costs a bounded number of messages", "statement": "Every message is accounted for by what was done: with n servers and m clients, setting the system up costs at most 4 messages for each server launched and n at the start, a client that joins n+6 messages, the announcement of a round 2n+m+1, its voting phase m and its end n+2m+1, a bridge posted 1, a vote 1, and a request for k bridges 2n+k+1, itself and everything sent in answer to it by anybody included. No message is answered for ever, and no action makes others cost more.", "quantifier": "all runs of the whole system in which clients join and servers register when they should, all numbers of servers, clients and rounds, all orders in which commands, launches and arrivals are mixed, all draws, from the start or from any moment at which nothing is under way (there with the assignments not yet signed by all)", "why_tests_cant": "the number of messages depends on the order of arrivals, and a bound must hold for every order and every number of participants; a test counts the messages of one run", "anchors": ["cmd/coordinator/CoordinatorLauncher.go:announce,vote,roundEnd,Launch", "cmd/coordinator/CoordinatorHandler.go:Handle,handleRequestBridges,handleGotSignatures", "cmd/server/ServerHandler.go:Handle", "cmd/client/ClientHandler.go:Handle", "cmd/client/ClientLauncher.go:sendVote,requestBridges,postBridge"]}
{"id": "C136", "title": "Bridges are handed out for reputation", "statement": "All bridges ever handed out for a client's requests are at most as many as it was entitled to: for every request it typed, the number it typed if that was not above its reputation at that moment, otherwise none. A client that has no reputation whenever it asks is never handed a bridge, and every request that reaches the coordinator was typed earlier at a client that had at least that reputation.", "quantifier": "all runs of the whole system on any schedule (also those in which commands come at the wrong time and messages are overtaken by rounds), all clients, numbers of requests, draws and lengths of runs", "why_tests_cant": "a request may be under way for any time, in the next round as well, and the bound is about all requests of a client together; tests count the bridges of single requests", "anchors": ["cmd/client/ClientLauncher.go:requestBridges", "cmd/coordinator/CoordinatorHandler.go:handleRequestBridges", "cmd/coordinator/Coordinator.go:GetBridge,GetBridges,AssignBridges"]}
{"id": "C137", "title": "Any of the free bridges may be handed out", "statement": "Which of the free bridges an accepted request gets is not decided by the requester, by the order in which they were posted or by their addresses: every selection of free bridges of the size the request gets, in every order, is the outcome of some order in which the coordinator reads its table.", "quantifier": "all states of the coordinator, all requests that are granted anything, all selections of free bridges without repetition and of the granted size, all orders of them", "why_tests_cant": "that every selection is possible is a statement about all orders of iteration; a test sees those that happen to occur", "anchors": ["cmd/coordinator/Coordinator.go:GetBridge,GetBridges,AssignBridges", "cmd/coordinator/CoordinatorHandler.go:handleRequestBridges"]}
{"id": "C138", "title": "The order in which bridges and votes arrive does not matter", "statement": "Bridges and votes that reach the coordinator in a phase may come in any order, from any senders, valid or not. As long as no two of the bridges have the same address, the coordinator ends up with the same bridges credited to the same pseudonyms and the same difference of reputation for every pseudonym, it stops in one order only if it stops in the other, and when the voting ends it sends exactly the same messages to the last server and to the clients.", "quantifier": "all states of the coordinator, all finite sequences of posted bridges and votes (whoever made them) and all permutations of them, all draws at the end of the voting", "why_tests_cant": "all permutations of arbitrarily long sequences of messages with arbitrary contents; a test runs a few orders of a few messages", "anchors": ["cmd/coordinator/CoordinatorHandler.go:handlePostBridge", "cmd/coordinator/CoordinatorHandler.go:handleVote", "cmd/coordinator/Coordinator.go:AddBridge", "cmd/coordinator/CoordinatorLauncher.go:roundEnd"]}
{"id": "C139", "title": "What happens at different processes is independent", "statement": "What can happen at two different processes at some moment (a message that arrives, a command that is typed, a step of the coordinator's main loop) can happen in either order; afterwards every process is in the same state and the same messages are on their way between any two processes in the same order, so that nobody can tell, then or ever after, which came first. In particular nothing that happens at one process keeps another process from what it could do, and two events of a run at different processes, the second of which was possible before the first, can be exchanged without changing what follows. Hence, if two courses of events show every process the same events in the same order and launch the same processes in the same order, nobody can tell their ends apart.", "quantifier": "all reachable states of the whole system (any number of servers and clients, any schedule, any history), all pairs of events at different processes, all continuations", "why_tests_cant": "it is a statement about all interleavings; a test sees one schedule", "anchors": ["util/Util.go:SendEvent", "cmd/coordinator/CoordinatorLauncher.go:startServerListener", "cmd/server/ServerLauncher.go:startAnonServerListener", "cmd/client/ClientLauncher.go:startClientListener"]}
