{
 "C02": [
  "proved",
  "membership test proved exactly; uniqueness of the encoding is false (C02_not_canonical)"
 ],
 "C11": [
  "partial",
  "false of the code: C11_false_*; partial theorems say what holds"
 ],
 "C12": [
  "partial",
  "false of the code: the nonce is constant"
 ],
 "C15": [
  "partial",
  "false of the code: C15_false_*"
 ],
 "C16": [
  "partial",
  "false of the code: sign of the feedback is not signed"
 ],
 "C17": [
  "partial",
  "false for arbitrary byte strings"
 ],
 "C70": [
  "partial",
  "false as stated (C70_false_*: one signed message or the messages between servers link everything); partial: the published tables alone are unlinkable, reduced to decisional Diffie-Hellman"
 ],
 "C26": [
  "partial",
  "false of the code: secrets are reused across sessions (C26_false_*); a single session is simulatable; one answer of a single session shows a trapdoor up to N, of 2^81·N possible values (C26_false_one_answer_reveals_high_part)"
 ],
 "C27": [
  "proved",
  "for all 0 <= x < 2^61, where 4x+1 fits into int64, with the square root in double precision (C27_float_sqrt, C27_three_squares_double); from 2^61 on the code panics (also proved)"
 ],
 "C29": [
  "partial",
  "false of the code: commitrx is not hashed (C29_false_*); partial: extraction when it is fixed first"
 ],
 "C33": [
  "partial",
  "false of the code (C33_false_*); partial: what an accepted request does imply"
 ],
 "C37": [
  "partial",
  "false of the code: VerifyHelper accepts a forgery by anyone (C37_false_forgery_accepted); the partial theorem is special soundness for signatures with exactly n challenges"
 ],
 "C41": [
  "partial",
  "false of the code: non-shuffles are accepted (C41_false_nonshuffle_accepted); all outputs but one can be chosen freely, since the challenges do not depend on the outputs (C41_false_all_but_one_arbitrary); outputs fixed in advance need only span the inputs (C41_false_spanned_accepted), which the partial theorem shows to be necessary"
 ],
 "C46": [
  "partial",
  "proved for servers started one after the other; false for concurrent registrations (C46_false_concurrent_registration: h loses a contribution and one server knows its discrete logarithm)"
 ],
 "C51": [
  "partial",
  "false of the code: re-posting an address replaces the provider and frees the bridge (C51_false_takeover); the partial theorem holds while nobody posts the address again"
 ],
 "C52": [
  "partial",
  "every entry was posted under a key that signed it (proved); that posters are participants of the round is false (C52_false_stranger_posts)"
 ],
 "C54": [
  "partial",
  "holds when no server answers twice; false otherwise: repeated answers of one server count as those of others (C54_false_repeated_answers)"
 ],
 "C55": [
  "partial",
  "signs only after the proof verifies (proved); the number of assignments signed is not compared with the proven indicator (C55_false_more_than_proven)"
 ],
 "C57": [
  "partial",
  "false of the code: votes can be replayed (C57_false_replay) and any participant can give anyone any number of points (C57_false_any_points_for_anyone); partial: bound by the number of accepted votes when each carries at most one point"
 ],
 "C59": [
  "proved",
  "for pseudonyms that decode; a pseudonym that does not decode terminates the coordinator, see C66"
 ],
 "C64": [
  "partial",
  "false of the code: a client started between two rounds is dropped (C64_false_*); the partial theorems hold for clients started in the posting or voting phase"
 ],
 "C65": [
  "partial",
  "false of the code: a vote that arrives while the table is on its way back changes the counter only (C65_false_*); the partial theorem holds when votes arrive before voting is ended"
 ],
 "C66": [
  "partial",
  "false of the code: C66_false_* (malformed and misdirected messages, empty pseudonyms, strangers' requests, early clients); C66_*_partial give the exact conditions for posts, votes and requests"
 ],
 "C67": [
  "partial",
  "false of the code: the proof is optional and is not about the rows sent (C67_false_*); C67_*_partial: a present proof must verify, and unknown keys stop a server at round end"
 ],
 "C82": [
  "partial",
  "false of the code: the test is not awaited and gates nothing (C82_false_*); partial: a wrong answer stops the client, and parameters outside the group pass at most 2^400 of 2^480 challenges"
 ],
 "C84": [
  "partial",
  "false of the code: C84_false_*; partial: lines that begin with another word"
 ],
 "C85": [
  "partial",
  "false of the code: numbers start nothing, other words start a coordinator; partial: names"
 ],
 "C86": [
  "partial",
  "false of the code when a bridge is posted again while signatures about it are collected (witness); proved for all orderly runs without such posts"
 ],
 "C87": [
  "partial",
  "proved for all orderly runs in which no address is posted while signatures about it are collected; signature responses that happen to be 0 excluded (C11)"
 ],
 "C88": [
  "partial",
  "false as stated: the challenge covers neither commitment, so one of them can be chosen after the challenge (C88_false_*); proved when both commitments are fixed and two different challenges are answered from the same first message"
 ],
 "C89": [
  "partial",
  "proved for all orderly runs in which no address is posted while signatures about it are collected (C86_false_repost_mixes_signatures shows that otherwise a requester can get nothing), requests in the name of the pseudonym come from the one client, and the response of the coordinator's signature is not 0 (C11)"
 ],
 "C91": [
  "partial",
  "false as stated: a bridge accepted while the main loop sends the results of a round is lost (C91_false_post_lost); proved when the two goroutines never have messages for the same process at the same time and neither comes in between the other's last message and its last write (C91_sections_serialize_partial), and every atomic run is such a run (C91_atomic_is_fine). The part of a section before its first message is one step"
 ],
 "C92": [
  "partial",
  "proved for all runs in which no panic comes after a message of the same handler (KEvent.Clean); false without this condition (C92_false_panic_after_message): a client registers before there is a generator, and the first server has been told when the coordinator panics. A process that is launched again is a new process with a new address"
 ],
 "C93": [
  "partial",
  "false as stated: the coordinator sends to every client it has ever registered, and a failed connection stops it, so no round can end after a registered client has left (C93_false_client_leaves); as long as nobody registers with the key of the client that has left. Proved: clients none of whose messages the coordinator has handled may leave, at no cost to anybody (C93_unknown_clients_may_leave_partial)"
 ],
 "C95": [
  "partial",
  "false as stated: when the eleven ports from local_port on are used, a further server goes on without an address and its registration makes the coordinator panic (C95_false_eleventh_server, C95_no_port_left); proved while one of the ports is left (C95_server_address_partial), so for up to ten servers (C95_ten_servers)"
 ],
 "C96": [
  "partial",
  "false as stated: a server that is started again has the address it had before, so when it was the last of the chain it is told to pass everything on to itself, and no announcement ever reaches the coordinator again (C96_false_last_server_restarted for every run, C96_false_witness); whichever server it is, ROUND_END then goes in a circle among the servers and never reaches the coordinator, so at most one more round begins and it never ends (C96_false_any_server_restarted for every run, C96_false_first_server_witness)"
 ],
 "C97": [
  "partial",
  "false as stated: a `get` that compares before and subtracts after the end of a round ends the program (C97_false_get_panics); proved for post and vote unless the client gets a new pseudonym meanwhile, for get unless pseudonym, reputation, commitment, randomness or parameters change meanwhile; a post torn by a new pseudonym is not taken by the coordinator (C97_torn_post_rejected)"
 ],
 "C98": [
  "partial",
  "false as stated: the lines after the first of one read are lost (C98_false_lines_lost), at the end of the input every wait ends at once (C98_false_end_of_input), and a line of 4096 bytes or more ends several waits (C98_false_long_line); proved for lines that end with the end of a read, as at a terminal"
 ],
 "C99": [
  "partial",
  "false as stated: the last byte printed is cut off whatever it is, so without an end of line the last digit is lost (C99_false_last_digit); proved for outputs that end with an end of line"
 ],
 "C100": [
  "partial",
  "false of the code: a server is taken in at any time (C100_false_always_added), and its secret makes every commitment kept for a client useless (C100_false_commitments_void, C100_false_whole_run); proved: without a late start the chain of servers never changes"
 ],
 "C101": [
  "partial",
  "false of the code: the coordinator draws each client's randomness itself and knows every change of it (C101_false_coordinator_picks_randomness, C101_false_randomness_is_announced), so it reads reputations and pseudonyms off the table (C101_false_coordinator_finds_*); a request leaks the high part of the randomness; proved: Pedersen commitments hide perfectly, integer commitments up to one part in 2^81, the answer about the margin up to c|d-d'| of Q masks"
 ],
 "C102": [
  "partial",
  "false of the code: one kept connection holds up all later messages (C102_false_kept_connection), one aborted connection stops the process (C102_false_aborted_connection), connections are never closed by the receiver so descriptors can run out (C102_false_descriptors_used_up); proved: what is handled is whole and in order in every interleaving, everything is handled when peers close their connections and there are descriptors enough, and the listener always comes to rest; a peer that is stopped while it writes an event stops the receiver (C102_false_cut_message)"
 ],
 "C103": [
  "partial",
  "false of the code: a registration handled while the operator ends the posting phase, and a vote handled while the operator ends the round, can stop the coordinator (C103_false_registration_while_posting, C103_false_vote_while_ending; both are reached in a concrete run). Proved: in every run in which the pairs of sections and messages listed in Props/MapRaceSpec.lean are not worked on at the same time nothing is stopped (C103_no_clash_partial), every atomic run is such a run, and every changed map is among the listed writes"
 ],
 "C104": [
  "partial",
  "false as stated: every table goes through every registered server, and the table of a new round is sent to each of them, so that no table comes back after any one registered server has stopped while nothing was under way, as long as no new server is launched (C104_false_server_stops). Proved: servers whose registration has not been handled may stop, at no cost to anybody (C104_unknown_servers_may_stop_partial)"
 ],
 "C105": [
  "partial",
  "false as stated: with one server, clients that register are enough for the coordinator and the server to wait for each other for ever, whatever the room for waiting connections (C105_registrations_jam for every such state, C105_false_deadlock from the beginning). Proved: for every state in which no bridge, request, signature or vote is under way some room is enough, as long as no commands are given and no clients are started (C105_room_enough_partial)"
 ],
 "C106": [
  "proved",
  "the numbers and bytes of gob's type descriptions are arbitrary; the receiver is one that accepts them"
 ],
 "C107": [
  "proved",
  "within the sizes gob can handle, which the quantifier names"
 ],
 "C108": [
  "proved",
  "one theorem per receiver, for every message and state; a refinement in both directions for whole runs and the transfer of invariants. The bytes of the proofs of shuffles are included (C109)."
 ],
 "C109": [
  "proved",
  "an equation between the verdict on the bytes and the verdict on the proof, and what follows from it; HashProve and HashVerify themselves (dedis/crypto) are modelled by what they write, read and stir into the pool"
 ],
 "C110": [
  "proved",
  "existence of an environment of the model that agrees with the modelled formats on all bytes shorter than 2^64; the model's environment has one encoder for all processes, although gob may number types differently in each: the bytes gob writes are only passed on and decoded, never signed or compared"
 ],
 "C111": [
  "proved",
  "refinement in both directions between the system over connections and the system with whole messages, with C108 also down to typed messages; a measure for the transport. A handler is one step, its messages are sent afterwards in any order that keeps the order per pair of processes"
 ],
 "C112": [
  "proved",
  "signing is a bijection between the draws and the accepted signatures with the signer's tag; what the tag itself shows is C36 (who knows a secret can compare) and otherwise rests on the Diffie-Hellman problem"
 ],
 "C113": [
  "proved",
  "a tag that was not sent is refused in the model; in the code it is nil and its use panics"
 ],
 "C114": [
  "partial",
  "false of the code: the tag is compared as a number but used modulo P, so that every multiple of P added gives another accepted tag (C114_false_unreduced_tags), and its sign is free when the signer's challenge is even (C114_false_negative_tag); proved: tags that are answered for two hash values are h^x up to the sign, modulo P, for the secret x of a member"
 ],
 "C115": [
  "partial",
  "false of the code when the proof is written with HashProve, as in BiffleTest: the challenge is drawn from the prover's messages, which do not contain the inputs and outputs, so that a cheat chooses the outputs afterwards (C115_false_any_hash); proved: honest proofs are accepted, they are exactly the accepted ones for the challenge and each arises for exactly one choice of the random numbers, so they show nothing; and outputs that are no shuffle can be proved for at most one challenge per commitment"
 ],
 "C116": [
  "partial",
  "false of the code, for a server with unlimited computing power: the answers R and S2 are masks plus challenge times secret, but the masks are not larger than the secrets, so only the right number fits what is seen (C116_false_*); proved: the argument of non-negativity can be simulated, and its four answers about the number and its decomposition hide them up to e(|x-x'|+...) parts in 2^81 N"
 ],
 "C117": [
  "partial",
  "false of the code: an accepted request is accepted again whenever it is sent again, by anybody, until no bridge is left (C117_false_repeated_request); proved: never more than the sum of the indicators of the requests accepted in its name"
 ],
 "C118": [
  "partial",
  "false of the code: whoever overhears a request and sends it again before all servers have answered is sent the bridges instead (C118_false_overheard); proved: they go to the sender of the latest request accepted in the name of the pseudonym in this round"
 ],
 "C119": [
  "partial",
  "false of the code: the base changes only with the next announcement, so a post that arrives after its round ended is accepted and offered in the next round under a pseudonym that belongs to nobody (C119_false_*); proved: once the base has changed, such messages change nothing, unless the response is zero or the hash coincides at two points"
 ],
 "C120": [
  "partial",
  "false of the code: for a vote that names a pseudonym of no table (a stranger's or a late post's) the list of keys has a hole; if it is left out when written, clients after it add the difference of somebody else (C120_false_shifted, C120_false_run), if it cannot be written the coordinator stops (C120_false_stops); proved: with votes for known pseudonyms only, every client adds exactly its own"
 ],
 "C127": [
  "partial",
  "false of the code: the holder of an assignment can vote with it any number of times in its round and each vote counts (C127_false_without_limit_on_votes, C127_false_three_points_for_one_bridge), and an address posted again in its round gets a second holder (C127_false_two_holders, C127_false_two_points_for_one_address); proved: with one vote per client, address and round, unhurried clients and no address posted twice in a round, a bridge has one holder and moves the poster's reputation by at most one point"
 ],
 "C128": [
  "partial",
  "false of the code: a client can be assigned its own bridge and vote for itself any number of times (C128_false_own_votes, C128_false_praises_itself); proved: holders of assignments have asked in this round, and if no client asks in a round in which it posts, every vote comes from a client that did not post the bridge"
 ],
 "C130": [
  "partial",
  "false of the code: whoever has lost points can start a client with a new key, and it has 5 (C130_false_new_key_new_points, C130_false_starts_again); proved: nothing done within a round changes the key or the reputation of a client that stays"
 ],
 "C133": [
  "partial",
  "false of the code: the late server does not know the keys of the round, panics on the table of its end, and the round never ends (C133_false_round_never_ends); votes with assignments signed before it came no longer count (C133_false_votes_lost); proved: the registration itself changes nothing of the round at the coordinator"
 ],
 "C134": [
  "partial",
  "false of the code: the signature covers only the last 32 bits of the message's number, so a vote can be turned round or moved to another message (C134_false_vote_not_signed, C134_false_texts_differ, C134_false_number_cut), and the coordinator is stopped by such a vote (C134_false_coordinator_stops); proved: every participant's vote is sent and verifies, its second vote about a message is recognised, another's is not mistaken for one, for clients that have heard an announcement and for the participants of every round of every orderly run"
 ]
}
