/-
What the coordinator reads from outside: the operator's standard input and the output of openssl.
-/
import Verif.Model.Suite

namespace ZRep

/-- Standard input: the results of the successive reads of it. An empty one is an end of file (a terminal can go on
after that), and after the last one every read is an end of file (/repo/cmd/coordinator/CoordinatorLauncher.go:228). -/
abbrev Stdin := List Bytes

/-- The reads of /repo/cmd/coordinator/CoordinatorLauncher.go:226-230 `waitKeypress`, with this many bytes buffered and no
end of line among them; the result is the input that is left. A `bufio.Reader` has a buffer of 4096 bytes. `ReadLine`
reads once more as long as there is no end of line in the buffer, the buffer is not full and the last read was no end of file; one read
takes at most what fits into the buffer. The reader is a new one at every call (line 228) and nobody reads its
buffer afterwards. -/
def waitKeypressFrom (buffered : ℕ) : Stdin → Stdin
  | [] => []
  | chunk :: rest =>
    let got := chunk.take (4096 - buffered)
    let left := chunk.drop (4096 - buffered)
    let rest' := if left = [] then rest else left :: rest
    if got = [] then rest'
    else if (10 : UInt8) ∈ got then rest'
    else if buffered + got.length ≥ 4096 then rest'
    else waitKeypressFrom (buffered + got.length) rest

/-- /repo/cmd/coordinator/CoordinatorLauncher.go:226-230 `waitKeypress`: returns in any case; the input that is left -/
def waitKeypress (input : Stdin) : Stdin := waitKeypressFrom 0 input

/-- the input left after the first n of the waits at /repo/cmd/coordinator/CoordinatorLauncher.go:243, 283, 287 (one
before the first round, then two in every round) -/
def afterWaits : ℕ → Stdin → Stdin
  | 0, input => input
  | n + 1, input => afterWaits n (waitKeypress input)

/-- `SetString(s, 10)` of math/big (/repo/primitive/fujiokam/FujiOkamCommitment.go:136): a sign or none, then at least one
digit and nothing else -/
def setString10 (s : Bytes) : Option Int :=
  let digits := if s.head? = some 45 ∨ s.head? = some 43 then s.tail else s
  if digits = [] ∨ ¬ ∀ b ∈ digits, 48 ≤ b ∧ b ≤ 57 then none
  else
    let n : ℕ := digits.foldl (fun n b => n * 10 + (b.toNat - 48)) 0
    some (if s.head? = some 45 then -(n : Int) else n)

/-- /repo/primitive/fujiokam/FujiOkamCommitment.go:130-141 `genSafePrime512`, given what openssl prints; `none` is a panic
(also for the slice expression in line 136 if nothing is printed; an error of openssl itself is a panic, too). -/
def genSafePrime512 (output : Bytes) : Option Int :=
  if output = [] then none else setString10 output.dropLast

end ZRep
