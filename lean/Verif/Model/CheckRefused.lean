import Verif.Model.Check
import Verif.Model.Refused
/-
scripts/check.js with data files that are refused: the program goes on with the client that `deserialize` has left behind.
-/
namespace AdBlock

/-- scripts/check.js:55-78 once more, with lib/util.js:37-49 as in `makeClientFromDATFileInto` -/
def checkClientInto (E : Env) (left : Leftover) (w : World) (a : CheckArgs) : Option (Res (Client E)) :=
  if ((whenTruthy a.host).isSome && ((whenTruthy a.location).isSome || (whenTruthy a.list).isSome)) || a.stats then
    match whenTruthy a.uuid with
    | some uuid => makeClientFromListUUID E w.fetch a.keepRuleText uuid
    | none =>
    match whenTruthy a.dat with
    | some path => makeClientFromDATFileInto E left w.readFile path
    | none =>
    match whenTruthy a.http with
    | some url => makeClientFromListURL E w.fetch none a.keepRuleText url
    | none =>
    match whenTruthy a.filter with
    | some text => some (makeClientFromStrings E a.keepRuleText [text])
    | none =>
    match whenTruthy a.filterPath with
    | some path => makeClientFromFilePath E w.readFile a.keepRuleText path
    | none => makeClientFromListURLs E w.fetch none a.keepRuleText (defaultLists.map (·.url))
  else none

/-- scripts/check.js:80-135: the whole run, whatever is in the data file -/
def checkInto (E : Env) (left : Leftover) (w : World) (a : CheckArgs) : Res CheckRun :=
  match checkClientInto E left w a with
  | none => pure { output := .error }
  | some r => do
    let c ← r
    if a.stats then pure { output := .parsing c.getParsingStats }
    else do
      match ← c.checkQuestions w a with
      | none => pure { output := .error }
      | some (out, c) =>
        match whenTruthy a.output with
        | none => pure { output := out }
        | some path => do
          let s ← c.serialize true true
          pure { output := out, written := some (path, s.buffer) }

end AdBlock
