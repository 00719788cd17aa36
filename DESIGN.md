# zRep: formal model in Lean 4

## What is modelled

`/repo` is a Go program (coordinator, servers, clients, and their
cryptographic helper packages). The model lives in `lean/Verif/Model`; helper
lemmas are in `lean/Verif/Lemmas`, and the property theorems in
`lean/Verif/Props`, one file per group of properties. The specifications a theorem
uses stand at the head of its file, or in `Props/RoundSpec.lean` for the
properties of whole rounds.

Conventions of the model

* A Go panic (CheckErr, nil dereference, index out of range, explicit panic)
  is `none`; a normal return is `some`.
* Suite points. `primitive/fujiokam/residue.go` (a copy of the suite's own
  residue group) is modelled on integers, function by function
  (`Model/Residue.lean`), and refined to `ZMod P` (C03). The rest of
  the code is modelled with points in `ZMod P` and secrets in `ZMod Q`, where
  `P`, `Q` are primes with `Q ∣ P-1`, and never anything more specific. A freshly
  allocated point (`suite.Point()`) is the number 0, as in the Go code.
* Fujisaki-Okamoto and LRS numbers are Lean integers; `big.Int.Exp` and
  `big.Int.ModInverse` are written out with Go's behaviour for negative
  exponents and non-invertible bases.
* Randomness, Go map iteration orders, and message arrival orders are explicit
  arguments; the theorems quantify over all of them.
* Hash functions and stream ciphers are arbitrary functions; nothing is assumed about
  them except where a hypothesis of the theorem says so.
* gob / protobuf / big.Int byte encodings: in the models of the processes arbitrary functions, with the
  round-trip law as a hypothesis or structure field when it is needed. `Model/Gob.lean` and `Model/Protobuf.lean` write the
  encodings out byte by byte, and C106 and C107 prove these laws of them for everything below the sizes at which gob gives up
  (messages of 8 gigabytes, lists of 357 million elements): above them the laws are idealised.
* A handler is a function from the component's state, the decoded request,
  the coins, to `Option (State × outgoing messages)`.

Which function is modelled by which definition, and why the others are not, is listed
function by function in `COVERAGE.md` (made by `tools/coverage.py` from the
citations in the model).

## Trusted base

* Lean 4.33.0's kernel and the three standard axioms `propext`,
  `Classical.choice`, `Quot.sound` (Mathlib uses them). No other axiom, no
  `sorry`, no `native_decide`, no `bv_decide`. The axioms of each property theorem
  are listed in `AXIOMS.md` (made by `tools/axioms.py` from `#print axioms`).
* The reading of the Go source into the model (each definition cites the lines).
* The behaviour of the dependencies: `math/big`, `math.Sqrt` and conversions (correctly rounded, IEEE 754), `encoding/gob` and
  `go.dedis.ch/protobuf` (their formats as written out in `Model/Gob.lean`, `Model/Protobuf.lean`; the bytes of gob's type descriptions are arbitrary), dedis/crypto's `proof.Rep`/`And`/`Or` (the sigma protocol written out in `Model/BiffleProof.lean`) and `proof.HashProve`/`HashVerify` (what they write, read and stir into the
  pool: `Model/ShuffleBytes.lean`; the hash itself is an arbitrary function) and its
  nist package (QR512 residue group: P = 2Q+1, both prime; `Point()` yields the
  number 0; secrets are reduced modulo Q; secret decoding rejects values ≥ Q).
* Messages from one process to another are handled in the order in which they were
  sent (`Next` in `Model/System.lean`): one connection per message, accepted one at a time.
  Messages between different pairs of processes may overtake each other.
* In the coordinator, a handler and a section of the main loop are atomic in all
  properties but C91, which says when this makes no difference.
* Processes never stop, except in C92, C93 and C104 (`Model/Crash.lean`): there a process can stop at any point, and one that sends
  to a stopped process stops. C96 (`Model/Restart.lean`) restarts a server at its old address.
* Commands typed at a client are atomic in the whole-system model; C97 (`Model/ClientRace.lean`) takes them apart into
  single readings of fields between the single assignments of the listener.
* Coordinator, servers and clients run on one machine: the coordinator and the clients listen on 127.0.0.1, the servers on
  0.0.0.0. What Linux and Go's package `net` do with these addresses is written in the comments of `Model/Launch.lean`
  (used by C94 and C95; the other properties take addresses as given and, among processes that are running, different).
* Modelled in part: TCP transport (connections with dial, write in pieces, close, accept and read in `Model/Links.lean`; aborted connections and
  missing descriptors in C102, C105). Not modelled: other connection errors, full socket buffers, goroutine data races on
  Go memory itself (of the Go runtime's checks only the one for maps of the coordinator: C103), log output, file I/O (only the parsing of config
  lines), probabilistic statements (probability of a challenge collision,
  computational assumptions). Soundness is stated as special soundness
  (extraction from several accepting transcripts), completeness as
  unconditional acceptance.

## Plan per property

| id | model | proof |
|----|-------|-------|
| C01 | Residue.marshal/unmarshal on bytes | round trip by digit lemmas, injectivity |
| C02 | Residue.unmarshal | characterisation of acceptance; witness of a second encoding |
| C03 | Residue.add/sub/neg/mul | refinement to ZMod P |
| C04 | Residue.pick/data | loop induction on the random stream |
| C05 | intToByte/byteToInt | arithmetic |
| C06 | conversions | ZMod val/cast |
| C07 | find* loops | list induction |
| C08 | readConfig as fold over lines | list induction |
| C09, C10 | elGamalSign/Verify | algebra in ZMod P |
| C11 | handlers' use of a fresh point as base | **false**: forgery theorem; partial: with the real base |
| C12 | constant nonce | **false**: key extraction theorem |
| C13 | encrypt/decrypt | algebra |
| C14–C17 | message builders | list append injectivity; **C15, C16, C17 false**: witnesses, partial versions |
| C18–C21 | Pedersen | algebra |
| C22–C23 | FO numbers | units of ZMod N |
| C24–C26 | honesty protocol, with the generation of its secrets (Model/HonestyGen.lean) | block induction; which draws are kept; **C26 false**: extraction from two sessions, and an answer computed over the integers shows the high part of a trapdoor |
| C27 | search loops with int64 arithmetic; the bound is a square root in double precision | Legendre's three-square theorem proved from Dirichlet's theorem; error analysis of the two roundings |
| C28, C29 | nonneg argument | algebra in units; **C29 false**: forged argument; partial: special soundness with the missing value fixed |
| C30, C31 | equality argument | algebra |
| C32, C33 | VerifyInd | composition; **C33 false** |
| C34–C37 | LRS loops | loop invariant around the ring; **C37 false**: extra challenge; partial |
| C38–C43 | shuffle package | Fisher–Yates invariant; discrete-log representation; **C41 false**: witness; accepted exactly as far as the outputs span the inputs, all outputs but one free (Props/ShuffleForge.lean); C42 polynomial argument |
| C44 | convertToOrigin, rebind | list/permutation lemmas |
| C45–C48 | registration handlers | invariants by induction on histories; **C46 false** for concurrent registrations |
| C49–C55 | bridges and signature collection | invariants over histories; **C51, C54, C55(count) false** |
| C56–C59 | votes | invariants; **C57 false** |
| C60–C63 | whole rounds through a chain of servers | list-of-servers induction; round induction; for C61 also the bases carried with the table (`Lemmas/RoundBases`), so that every row's commitment is followed through announcement, end of voting and return (`Props/RoundTables`) |
| C64–C67 | races, robustness, tampering | **false** as stated: concrete witnesses plus what does hold |
| C68, C69 | client guard, phases | case analysis, invariant |
| C70 | observers as functions of what they see; averages over uniform exponents (Lemmas/DDH) | **false** for readers of one signed message (key recovery) and of the messages between servers (the proof data are in order); partial: published tables of one server or of many rounds are indistinguishable under any orders, by an explicit reduction to decisional Diffie-Hellman; `announced_published` ties the tables to `handleAnnouncement` |
| C71 | ledger of accepted votes over a log of the whole system | round induction on the invariant of C60–C63 |
| C72 | registration messages in the whole system | invariant of all runs (`Lemmas/Params`) |
| C73–C75 | client commands, coordinator and server handlers, composed | nobody's table changes during a round (`Lemmas/RoundFrozen`), plus C60, C32, C49, C11 |
| C76 | honesty dialogue in the whole system | each client registers once (packet count invariant, `Lemmas/HonestRun`), then C24 and C72 |
| C77 | addresses in messages and states of all processes | invariant over all runs (`Lemmas/Routing`), plus distinct addresses (`Lemmas/Chain`, `Lemmas/Params`) |
| C78 | totality of handlers in orderly states | provenance of points and tables over all runs (`Lemmas/Prov`), totality per phase (`Lemmas/NoStop`); luck of shuffle proofs is a hypothesis |
| C79 | deliveries of the whole system | a weight of the messages under way that every delivery decreases (`Lemmas/Drain`), plus C76-C78 for the absence of deadlock and the invariant behind C60 for the phase |
| C80 | coordinator process over all histories | case analysis of every step that asks for signatures or leaves a trace; the split of the commitment from C33_accepted_request_splits_entry_partial. That the reputation covers the indicator does not follow (C33_false_*) |
| C81 | one client over all message histories | the held assignments as a fold over the history |
| C82 | the same, with the honesty test | **false**: nothing waits for the test; partial: fold over the history, and counting of challenges with the special soundness of C25 |
| C83 | the client's command loop with ReadLine, Split and Atoi (`Model/Command`) | induction on digits and lines |
| C84 | the same | **false**: witnesses for all wrong words; partial: unknown commands |
| C85 | main.go | **false** for numbers and other words; partial: names |
| C86 | whole system, history of the collection of signatures | **false** when a bridge is posted again during the collection; partial: invariant `SignInv` over all runs without such posts |
| C87 | whole system | C86 composed with C75 (partial for the same reason) |
| C88 | equality argument | negation by an explicit forgery with commitments chosen after the challenge; special soundness for fixed commitments |
| C89 | whole system | a per-assignment invariant from the grant on: being collected (every registered server has either answered, exactly once, or has a message under way), sent to the requester, or held; then C73 for the start and C86 for completeness |
| C90 | whole system | an invariant of all runs with the number of events as parameter (feedback within 1, differences within n, reputations within 5 + n·n); the 64-bit program is a second transition relation that wraps every number after each step, and its runs are shown to be the same |
| C91 | whole system with the coordinator's main loop and listener as two goroutines that send one message at a time (Model/Micro.lean) | simulation by the system with atomic sections, message order compared per pair of processes, notices delivered early; the converse inclusion; a concrete run in which an accepted bridge is lost |
| C92 | whole system in which processes stop, also between two messages (Model/Crash.lean) | simulation by the system in which nobody stops: same states where up, same messages per pair of processes, prefixes where the sender has stopped; a handler that panics after a message is the exception, with a concrete run and determinism of events to show that no run without failures has the same history |
| C93 | same | false: an invariant (the address of the client stays in the coordinator's table) and every section that ends a phase sends to it; concrete run; for clients nobody knows, an invariant (no message is sent to them, none names them) that turns every run without failures into one in which they have stopped |
| C94 | addresses as text, listening sockets, processes started and stopped (Model/Launch.lean) | round trip of the text form; invariant over all histories: running processes with an address and sockets correspond, no two sockets conflict; a concrete case with port 0 |
| C95 | same | the loop over the ports ends at a port that is left; false when none is: the text of a missing address is no address; concrete history |
| C96 | whole system and a restart that keeps the address (Model/Restart.lean) | false: invariant after the restart (no server passes on to the coordinator, no announcement on its way to it), from the chain invariant of C45; concrete run. For any server: ROUND_END stays within the set of addresses from the restarted server to the end of the chain (invariant `Circle`), so no round ends any more; concrete run |
| C97 | client's listener as single assignments, commands as single readings (Model/ClientRace.lean) | false: a `get` across the end of a round panics, for every client; partial: induction over the messages handled meanwhile, the fields read do not change; a torn post is rejected, from the algebra of the signature |
| C98 | `waitKeypress` on an input given as the results of single reads (Model/Operator.lean) | induction over the reads; false for several lines in one read, at the end of the input, for long lines |
| C99 | `genSafePrime512` on the bytes openssl prints (Model/Operator.lean) | induction over the digits; false without an end of line |
| C100 | the whole system (Model/System.lean); a server launched in any state | false: explicit run of a late registration from any state of rest between rounds, with C62 the commitments no longer open; induction over runs without a late launch |
| C101 | commitments, registration of clients, round end, requests | bijection of the randomness; counting over a period; **false** for the coordinator, who draws the randomness: C60 and binding identify reputation and entry |
| C102 | one listener, connections as byte streams, single reads, file descriptors (Model/Listener.lean) | invariant over all interleavings; a measure of what is left to do; false for kept and aborted connections and without garbage collection |
| C103 | both goroutines of the coordinator, one use of a map at a time, with the runtime's mark for maps being written (Model/MapRace.lean, refining Model/Micro.lean) | invariant: what is left to do uses only the maps of the section or message at hand, and the two do not clash; runs stopped in the middle of a write give the counterexamples |
| C104 | processes that stop (Model/Crash.lean) | false: tables of the end of a round stay among the servers from the stopped one on, and the table of a new round is sent to all servers; invariant over runs with failures, whole chain; for servers nobody knows, as in C93 |
| C105 | every goroutine sends its messages one by one and accepts nothing meanwhile; room for K waiting connections at every process (Model/Backlog.lean) | false: registrations fill the room at the server while it waits for the coordinator, then the room at the coordinator while it waits for the server (induction over K), and a full pair stays full (invariant `Stuck`); with room for the weight of C79, simulation by the system with unlimited room, message order compared per pair of processes |
| C106 | the bytes of an event: gob's numbers, strings, maps of values with named types, structures, messages, type descriptions; the text of addresses; `SendEvent`, `DecodeEvent` (Model/Gob.lean), with the listener of C102 | each reader undoes its writer with anything following (induction over entries, fields, descriptions); part of a message is refused because of its length in front; composed with C102 |
| C107 | the other values sent with gob (Model/Gob.lean) and protobuf's numbers, fields, lists, bits, assignments (Model/Protobuf.lean) | each reader undoes its writer, induction over elements; invariant over the fields for group membership |
| C108 | which parameters each sender puts into an event under which names and types, and what each handler reads (Model/Wire.lean); the system with bytes on the network (`WSys`) | case distinction over the messages with C106, C107 for each parameter; simulation of runs in both directions |
| C109 | the bytes that `ctx.Put` writes and `ctx.Get` reads for a shuffle's proof, and the portions from which challenges are drawn (Model/ShuffleBytes.lean) | what is read is characterised by what is written (`getProof_inv`, `getProof_of`); the checks use only the elements that were sent; the encoding is injective |
| C110 | the environment of the whole-system model (`NetEnv` in Model/Env.lean, Model/Net.lean) against Model/Gob.lean and Model/Protobuf.lean (Props/Formats.lean) | the formats are completed to codecs for everything by writing what is too long for a computer behind 2^64 zeros; the laws follow from C107; the transfer to runs with bytes from C108 |
| C111 | the whole system over connections: dial, write, close, accept, read, end of the connection as single steps of a system with all processes (Model/Links.lean) | invariant: buffers hold the beginning of what was written, accepted connections are the oldest to their process; simulation up to the order of messages between different pairs, both ways; a measure |
| C112 | LRS signing as a function of its draws (Model/LRS.lean, `RingCoins` in Props/RingHidden.lean) | bijection: from an accepted signature with the signer's tag the draws are computed back; counting |
| C113 | the two functions of Encoding.go on top of Model/Gob.lean (Model/RingBytes.lean) | field by field with the lemmas of C107; sizes bounded |
| C114 | accepted ring signatures of a dishonest member (`signWithTag` in Props/RingTwice.lean against Model/LRS.lean) | **false**: tag not reduced, sign free; partial: extraction of the secret from two transcripts in the group of prime order, tag up to sign |
| C115 | the sigma protocol of the dedis proof package for the predicate of biffle.go, and its bytes (Model/BiffleProof.lean) | bijection between the prover's random numbers and the accepted proofs; secrets from two answers; **false** for HashProve: the claim is not hashed, a forger is constructed for every hash function |
| C116 | Model/FujiOkam.lean, Model/Equality.lean, Model/Bridge.lean `makeRequest` | counting choices of the masks that pass a test; simulator; **false**: two answers (`R` of the argument of non-negativity, `S2` of that of equality) are masked too little for their size, so that only one number fits what is seen unless the bases are related by a small number |
| C117 | coordinator histories (Model/History.lean), `handleRequestBridges`, `AssignBridges` | induction over histories: each step assigns at most the indicator of the request accepted in it; **false** as stated: induction over the copies of one request |
| C118 | as C117, with `handleGotSignatures` and the table of requesters | invariant: the table holds the sender of the latest accepted request of the round; **false** as stated: the invariant of C53 carried over a repeated request from another address |
| C119 | `handlePostBridge`, `handleRequestBridges`, `handleVote`, the base of the round; orderly runs of the whole system for the counterexample | algebra: a signature good for two bases has response zero or shows two points with the same hash; **false** as stated: an orderly run with a delayed post |
| C120 | coordinator's `handleRoundEnd`, client's `handleRoundEnd`, `FindIntUsingKeyList`; what is done with missing points in a list is left to the environment and both possibilities are treated | positions in the two lists; **false** as stated: a run of honest processes with one late post, in which a praised client loses a point |
| C121 | the system with `Unhurried` steps (conditions only on when commands are given and voting is ended, none on what messages contain) | invariant `Wait` over all unhurried runs: posts, requests, assignments and votes are under way only in a round and name current pseudonyms; unused bridges too; assignments of a client are current unless the news of the end of the round are on their way to it. Hence unhurried runs are orderly and everything proved of orderly runs holds (C71) |
| C122 | the whole system, all messages (C79 had only tables and registrations) | `Sys.fullWeight`: every message weighs more than everything its receiver sends because of it (a request for n bridges weighs the questions to all servers, their answers and n signed assignments for each answer); it decreases at every delivery of an orderly run |
| C123 | unhurried runs (C121) of a coordinator with honest parameters | invariant `Keep` (with `Sound`, `LogOK`, `Kept`): every post, request, list of assignments and vote under way can be decoded, names a requester in the table of the round, and the coordinator's log has an entry for it; so every handler returns; then by C122, C78, C76. The exception `LuckyProof` is that of C78/C79. A command given by a client that has no table yet stops that client itself and is no delivery |
| C124 | unhurried runs (C121); `OnceARound` on the history of commands | invariant `Once` (Props/Once.lean): posts under way have different addresses, none of which the coordinator knows; signatures are collected only about known addresses; what is known or under way has been posted in this round; a request under way names its sender's pseudonym. It discharges the conditions `PostsApart` and `SoleSource` of C86, C87 and C89, which then apply; the command's packet is followed to its arrival in the history. The part about the senders of requests holds without `OnceARound` (`OwnInv`, Props/OwnAll.lean) |
| C125 | unhurried runs with `OnceARound`; specification `PostedBy` (who gave the command to post an address in this round) and `rewards` (sum over the history of counted votes about addresses posted by this client) | invariant `Credit` (Props/Credit.lean, on `Credits` of Lemmas/Credit.lean): posts, assignments being signed, deliveries, the list, and assignments held name, for each address, the pseudonym of the key that posted it in this round, until the round is being closed; with C121 (reputation is 5 plus what was earned) each gain is the reward |
| C126 | states of unhurried runs in a round with an empty network, followed by one command and arrivals only | the only message under way is the next to arrive (`sole_arrival`); C74 for posts; C73, C123 (bound, nobody is stopped; no table is under way in a round, so no unlucky proof) and the way of a request of C124 (`request_followed`) for requests; C124 and C125 for votes (Props/Answer.lean) |
| C127 | unhurried runs with `OnceARound`; specification `VotesOnce` (no two commands of one client to vote about one address in one round) and `posts` (number of commands to post) | invariant `Uniq` (Props/Holders.lean): an address is on its way to, or held by, at most one client, and is then marked used; invariant `VoteInv` (Props/OneVote.lean): every vote under way or counted goes back to a command of the holder; so the votes counted about an address in a round are at most one, and C125 bounds the reputation by the posts. The refutation without `VotesOnce` repeats one vote any number of times. Without `OnceARound` it is false too (Props/TwoHolders.lean): a bridge posted again in its round gets a second holder |
| C128 | unhurried runs (with `OnceARound` in Props/Asked.lean, without it in Props/AskedAll.lean, through `ULog.credit_all`); specification `RequestCommand`, `PostsOrAsks` (no client asks for bridges in a round in which it has posted) | invariant `AskInv` (Props/Asked.lean): every entry of the coordinator's table of requesters, every request and delivery under way and every assignment held in a round goes back to a command to ask in this round; `ULog.voters`: every vote under way goes back to a command of its sender. The refutation (Props/SelfVote.lean) composes C126 (post, request) and the refutation of C127 (votes): any number of points, alone |
| C129 | unhurried runs with `OnceARound`, quiet moments; specification `countedVote` (what an event adds: the feedback of a vote the coordinator accepts), `totalReputation` | Props/Conserve.lean: by C125/C127's account of one client, summed over all clients: the one-time keys of a round are distinct, and every address with votes belongs to exactly one of them, so the sum over clients of what each is owed is the sum over the table of rewards.  Props/ConserveAll.lean: the same without `OnceARound`: invariant `MenInv` (addresses being signed are in the coordinator's table), hence `Credit` in all unhurried runs, and every counted vote names the pseudonym of exactly one client; also C125 for clients that post nothing |
| C130 | unhurried runs; refutation quantified over every quiet moment of a posting or voting phase, every fresh key and address | Props/FreshStart.lean: `ULog.client_in_round` (no event within a round changes a client's reputation), C123 (arrivals come to an end); concrete run in which A has 4 points and the newcomer 5 |
| C131 | orderly runs; the fake clients' private keys are read off the history (the announcement of the first round creates them) | Props/Crowd.lean: invariant of Lemmas/RoundInv with the set of old keys made exact, keys of later clients apart from them; the announced list is a permutation of g^x over fake and registered keys |
| C132 | histories of steps of the coordinator's process and calls of its two exported recording methods; the expected records are read off the part of the history after the last phase change | Props/Records.lean: every handler leaves the records alone (frame), induction over the history; the difference from C56, the server keys from C45 |
| C133 | runs with crashes (Model/Crash) from any quiet moment of the posting or voting phase, a server being launched there | Props/JoinRound.lean: invariant that tables of an end are on their way to the late server and contain a key it does not know, so it panics on each (C67); the coordinator's table has every announced key (invariant of all runs); the vote by the number of signatures |
| C134 | `sendVote2` and its `CreateBase` (Model/RingVote), the client's handlers from an announcement on, the bytes of a ring signature (C113), the coordinator's records | Props/RingVote.lean: no handler but two touches the client's place in the list; C113 (verifies), C35/C36 (tags) for what is read from the sent bytes; Props/Seat.lean: in orderly runs of the whole system, by the invariant that no answer to a registration comes after an announcement, a client's pseudonym is in its list at its index; **false** as stated: the sent signature is the same for both directions and for numbers 2^32 apart; the coordinator's reader misses the assignment and panics |
| C135 | orderly runs of the whole system | Props/Cost.lean: a weight of the messages under way and of the assignments waiting for signatures (Lemmas/DrainTight.lean, a sharper form of the weights behind C79) that every arrival decreases by at least one and every action increases by at most its price; clients registered or registering are among those launched; Props/SettleSoon.lean joins this with C123: the number of arrivals until the system is quiet is known in advance |
| C136 | runs of the whole system on any schedule, with the state before every event | Props/Grant.lean: what was handed out and what is asked for by requests under way is at most what was typed within the reputation (C68); nobody but a client's command sends requests; a request marks at most as many bridges as it asks for |
| C137 | the coordinator's table of bridges and the order in which it is read (`Iter`: Go leaves it open; only orders that begin at some entry and go round are used) | Props/Choice.lean: induction over the selection, each call beginning at the entry that is wanted |
| C138 | the coordinator process | Props/Order.lean: every posted bridge or vote is one of four effects on the two maps, the same in all states that agree otherwise; effects commute unless both enter the same address; induction on the permutation; what is sent at the end of the voting depends on the maps through their lookups only.  Props/OrderSys.lean: the same in the whole system, messages of different senders under way may overtake each other |
| C139 | all runs of the whole system | Props/Independent.lean: every event is a local step of one process that takes at most one message from the network and appends what the process sends; addresses of processes differ (invariant); messages taken have different destinations and messages sent different sources, so channels do not mix; bisimulation of situations that agree channel by channel.  Props/Histories.lean: launches commute with what happens at running processes; by induction on a run its first event can be brought to the front of any other run with the same histories, so that runs which show every process the same events end alike |

## Wrong programs

`seeded/LOG.jsonl` lists the edits of the model that were tried. Most of them were built (`tools/mutate.py`): then `theorems_failed`
names the theorems that no longer prove. Where a helper lemma fails first, the modules above it are not built, and the failure
alone does not tell whether a property theorem would notice. For these `tools/oracle.py` leaves out all proofs and evaluates
instances of the property theorems' statements on the edited program: on three runs of the whole system
(`tools/oracle_runs.lean.txt`) and on small arguments of the single functions (`tools/oracle_functions.lean.txt`).
`claims_false_on_runs` lists the properties whose statement is false of the edited program. These evaluations are tests of the
statements, not part of any proof; nothing in `lean/` depends on them.
