/-
Model of /repo/cmd/bridge/bridge.go: the requests clients send and the byte strings that are
signed. A request's `map[string]interface{}` becomes a structure with one field per key.
-/
import Verif.Model.Util

namespace ZRep

/-- POST_BRIDGE parameters (/repo/cmd/client/ClientLauncher.go:70-74). -/
structure PostParams where
  bridgeAddr : Bytes
  nym : Bytes
  signature : Bytes
deriving DecidableEq

/-- REQUEST_BRIDGES parameters (/repo/cmd/client/ClientLauncher.go:125-135). -/
structure RequestParams where
  ind : Int
  nym : Bytes
  signature : Bytes
  foCommd : Bytes
  pCommd : Bytes
  pCommind : Bytes
  rind : Bytes
  argNonneg : Bytes
  argEqual : Bytes
deriving DecidableEq

/-- VOTE parameters (/repo/cmd/client/ClientLauncher.go:219-224). -/
structure VoteParams where
  nym : Bytes
  assignment : Bytes
  signatures : Bytes
  feedback : Int
  signature : Bytes
deriving DecidableEq

/-- GOT_SIGNS parameters sent to a client (/repo/cmd/coordinator/CoordinatorHandler.go:345-356,
393-404). -/
structure GotSignsParams where
  assignment : Bytes
  signatures : Bytes
  signature : Bytes
deriving DecidableEq

/-- /repo/cmd/bridge/bridge.go:90-102 `MessageOfRequestBridges`. -/
def messageOfRequestBridges (p : RequestParams) : Bytes :=
  intToByte p.ind ++ p.nym ++ p.foCommd ++ p.pCommd ++ p.pCommind ++ p.rind ++ p.argNonneg
    ++ p.argEqual

/-- /repo/cmd/bridge/bridge.go:104-109 `MessageOfPostBridge`. -/
def messageOfPostBridge (p : PostParams) : Bytes := p.bridgeAddr ++ p.nym

/-- /repo/cmd/bridge/bridge.go:111-115 `MessageOfGotSignatures`. -/
def messageOfGotSignatures (p : GotSignsParams) : Bytes := p.assignment ++ p.signatures

/-- /repo/cmd/bridge/bridge.go:117-125 `MessageOfVote`: `big.NewInt(f).Bytes()` is the absolute
value of the feedback. -/
def messageOfVote (p : VoteParams) : Bytes :=
  p.nym ++ p.assignment ++ p.signatures ++ natToBytes p.feedback.natAbs

end ZRep
