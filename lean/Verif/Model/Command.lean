/-
Model of the parts of the program the user types at: the command line (/repo/cmd/main.go) and the client's command loop
(/repo/cmd/client/ClientLauncher.go:317-345), with the functions of Go's library it uses (bufio.Reader.ReadLine,
strings.Split, strconv.Atoi).
-/
import Verif.Model.Client
import Mathlib.Data.List.SplitOn

namespace ZRep

variable {P Q : ℕ}

/-- What /repo/cmd/main.go:11-29 can launch. -/
inductive Role where
  | coordinator | server | client
deriving DecidableEq

/-- /repo/cmd/main.go:11-29 `main`: what is launched for the given os.Args (the first one is the name of the program);
`none`: nothing. Go's cases do not fall through, so the empty cases "0", "1" and "2" launch nothing. -/
def launched (args : List String) : Option Role :=
  if args.length = 2 then
    match args[1]? with
    | some "0" => none
    | some "coordinator" => some .coordinator
    | some "1" => none
    | some "server" => some .server
    | some "2" => none
    | some "client" => some .client
    | _ => some .coordinator
  else none

/-- `reader.ReadLine()` of a bufio.Reader with its default buffer of 4096 bytes (ClientLauncher.go:318-321; the second
and third result are ignored there): the line read and the input that is left. A line that does not fit into the buffer
is returned in pieces. Simplification: the input is given as a whole, ended by end of file. -/
def typedLine (input : Bytes) : Bytes × Bytes :=
  let window := input.take 4096
  if (10 : UInt8) ∈ window then
    let i := window.idxOf 10
    let line := window.take i
    (if line.getLast? = some 13 then line.dropLast else line, input.drop (i + 1))
  else if input.length < 4096 then (input, [])
  else if window.getLast? = some 13 then (window.dropLast, input.drop 4095)
  else (window, input.drop 4096)

/-- The lines read by the loop at ClientLauncher.go:320-345 from an input, up to its end; the first argument bounds their
number. Simplification: at the end of the input the loop goes on for ever with empty lines, which do nothing. -/
def typedLines : Nat → Bytes → List Bytes
  | 0, _ => []
  | _ + 1, [] => []
  | fuel + 1, b :: input => (typedLine (b :: input)).1 :: typedLines fuel (typedLine (b :: input)).2

/-- Result of strconv.ParseUint(s, 10, 64) (used by ClientLauncher.go:330, 331, 339 through Atoi). -/
inductive ParsedUint where
  | syntax
  | range
  | ok (n : Nat)

/-- The loop of strconv.ParseUint(s, 10, 64) (used by ClientLauncher.go:330, 331, 339 through Atoi), with the number read
so far: it stops at the first byte that is no digit, or as soon as the number exceeds 64 bits. -/
def parseUintFrom (n : Nat) : Bytes → ParsedUint
  | [] => .ok n
  | b :: s =>
    if ¬ (48 ≤ b ∧ b ≤ 57) then .syntax
    else if n ≥ (2 ^ 64 - 1) / 10 + 1 then .range
    else if n * 10 + (b.toNat - 48) > 2 ^ 64 - 1 then .range
    else parseUintFrom (n * 10 + (b.toNat - 48)) s

/-- The loop of the fast path of strconv.Atoi (ClientLauncher.go:330, 331, 339) for strings of less than 19 bytes. -/
def atoiFastFrom (n : Nat) : Bytes → Option Nat
  | [] => some n
  | b :: s => if ¬ (48 ≤ b ∧ b ≤ 57) then none else atoiFastFrom (n * 10 + (b.toNat - 48)) s

/-- The first result of strconv.Atoi on a 64-bit machine; the error is ignored in ClientLauncher.go:330, 331, 339. -/
def atoi (s : Bytes) : Int :=
  let neg : Bool := s.head? = some 45
  let digits := if s.head? = some 45 ∨ s.head? = some 43 then s.tail else s
  if digits = [] then 0
  else if s.length < 19 then
    match atoiFastFrom 0 digits with
    | none => 0
    | some n => if neg then -(n : Int) else n
  else
    match parseUintFrom 0 digits with
    | .syntax => 0
    | .range => if neg then -2 ^ 63 else 2 ^ 63 - 1
    | .ok n =>
      if neg then (if n > 2 ^ 63 then -2 ^ 63 else -(n : Int))
      else (if n ≥ 2 ^ 63 then 2 ^ 63 - 1 else n)

/-- What one round of the loop at ClientLauncher.go:320-345 does: sends messages and goes on, or ends the program. -/
inductive Typed (P Q : ℕ) where
  | sends (out : Out P Q)
  | ends

/-- the word `vote` (ClientLauncher.go:329) -/
def wVote : Bytes := [118, 111, 116, 101]
/-- the word `post` (ClientLauncher.go:334) -/
def wPost : Bytes := [112, 111, 115, 116]
/-- the word `get` (ClientLauncher.go:338) -/
def wGet : Bytes := [103, 101, 116]
/-- the word `exit` (ClientLauncher.go:342) -/
def wExit : Bytes := [101, 120, 105, 116]

/-- One round of the loop at ClientLauncher.go:320-345 on the line `line`; `k` are the random draws of a request.
`strings.Split(line, " ")` is `List.splitOn`. `none`: the program panics (a missing word, or the command does). -/
def Client.typed (S : Suite P Q) (env : NetEnv P Q) (c : Client P Q) (k : RequestCoins Q) (line : Bytes) :
    Option (Typed P Q) :=
  let words := line.splitOn 32
  if words.head? = some wVote then do
    let w1 ← words[1]?
    let w2 ← words[2]?
    let out ← c.sendVote S env (atoi w1) (atoi w2)
    some (.sends out)
  else if words.head? = some wPost then do
    let w1 ← words[1]?
    some (.sends (c.postBridge S w1))
  else if words.head? = some wGet then do
    let w1 ← words[1]?
    let out ← c.requestBridges S env (atoi w1) k
    some (.sends out)
  else if words.head? = some wExit then some .ends
  else some (.sends [])

end ZRep
