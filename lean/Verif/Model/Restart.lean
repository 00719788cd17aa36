/-
A server that is stopped and started again.

/repo/cmd/server/ServerLauncher.go:97-105 takes the first free port from local_port on, so the server that is started
again gets the port, and with it the address, that it had before (Model/Launch.lean; the example beside C94). Nothing is
stored on disk: it starts with new keys and registers once more.
-/
import Verif.Model.System

namespace ZRep

variable {P Q : ℕ}

/-- Server `j`, which has the address `addr`, is stopped and started again (ServerLauncher.go:58-110). The messages on
their way to it are lost: the connections end with the process (/repo/util/Util.go:61-70). Simplification: nobody sends to the
address between the two (the sender would panic, Util.go:66: Model/Crash.lean). -/
def Sys.restartServer (S : Suite P Q) (s : Sys P Q) (j : ℕ) (addr : Addr) (a roundkey : ZMod Q) : Sys P Q :=
  { s with
    servers := s.servers.set j (initServer S addr s.coord.c.localAddr a roundkey)
    net := (s.net.filter fun p => decide (p.dst ≠ addr)) ++
      post addr (initServer S addr s.coord.c.localAddr a roundkey).register }

end ZRep
