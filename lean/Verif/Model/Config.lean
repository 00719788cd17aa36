/-
Model of /repo/util/ConfigReader.go.
-/
import Mathlib.Logic.Function.Basic

namespace ZRep

/-- the global `config` map (ConfigReader.go:10); lines, keys and values are character lists -/
abbrev Config := List Char → Option (List Char)

/-- `strings.Split(line, "=")` (ConfigReader.go:47): the list of pieces, never empty. -/
def splitEq : List Char → List (List Char)
  | [] => [[]]
  | c :: cs =>
    if c = '=' then [] :: splitEq cs
    else match splitEq cs with
      | [] => [[c]]
      | p :: ps => (c :: p) :: ps

/-- /repo/util/ConfigReader.go:45-49, one iteration: `config[s[0]] = s[1]`, which panics when
the line has no '='. -/
def readLine (cfg : Config) (line : List Char) : Option Config :=
  match splitEq line with
  | k :: v :: _ => some (Function.update cfg k (some v))
  | _ => none

/-- /repo/util/ConfigReader.go:37-54 `readConfig`; a missing file (`none`) is skipped. The file
is given as the lines `bufio.Scanner` yields. -/
def readConfigFile (cfg : Config) (file : Option (List (List Char))) : Option Config :=
  match file with
  | none => some cfg
  | some lines => lines.foldlM readLine cfg

/-- /repo/util/ConfigReader.go:12-17 `ReadConfig`: conn.properties, then local.properties. -/
def readConfig (conn loc : Option (List (List Char))) : Option Config := do
  let cfg ← readConfigFile (fun _ => none) conn
  readConfigFile cfg loc

/-- /repo/util/ConfigReader.go:19-26 `GetParameter`: `config` is the global map (`none` = nil);
when nil, local.properties is read first and then conn.properties. A missing key gives "". -/
def getParameter (config : Option Config) (conn loc : Option (List (List Char)))
    (name : List Char) : Option (List Char) := do
  let cfg ← match config with
    | some c => some c
    | none => do
      let c ← readConfigFile (fun _ => none) loc
      readConfigFile c conn
  some ((cfg name).getD [])

end ZRep
