import Verif.Model.Cli
import Verif.Model.UuidText
import Verif.Model.JsonText
import Verif.Model.WireCall
/-
Sessions of the command line client, as bytes: the arguments are read by the crates the program uses (`uuid`, `serde_json`), and
the messages between client and server are bytes (`client/src/main.rs:150-258`).
-/
namespace IndraDB

/-- The part of `run` from the call on (`client/src/main.rs:153-258`), for any way `call` of making a call. -/
def performWith {σ : Type} (call : Op → σ → σ × Except ClientError Reply) (s : σ) : Plan → σ × Except CliError Printed
  | .ping => (s, .ok .ok)
  | .create op refused done => match call op s with
    | (s', .ok (.bool true)) => (s', .ok done)
    | (s', .ok (.bool false)) => (s', .error refused)
    | (s', .ok _) => (s', .error (.client .badResponse))
    | (s', .error e) => (s', .error (.client e))
  | .quiet op => match call op s with
    | (s', .ok _) => (s', .ok .nothing)
    | (s', .error e) => (s', .error (.client e))
  | .query q print => match call (.get q) s with
    | (s', .ok (.outputs l)) => match print l with
      | some p => (s', .ok p)
      | none => (s', .error .panic)
    | (s', .ok _) => (s', .error (.client .badResponse))
    | (s', .error e) => (s', .error (.client e))

section
variable (S : Store) (letter : Char → Bool) (F : Floats)

/-- The program `run` (`client/src/main.rs:150-258`) with the readers of the crates, talking to the server in bytes. `ping` sends
an empty message and is modelled as succeeding. -/
def Store.cliBytes (env : S.Env) (generated : Uuid) (c : Command) (s : S.State) : S.State × Except CliError Printed :=
  match plan letter (serdeText F) UuidText.parseStr generated c with
  | .error e => (s, .error e)
  | .ok p => performWith (S.wireCall letter (serdeText F) env) s p

/-- The program run several times (`client/src/main.rs:20-258`), one run after another: for each run the iteration orders inside
the datastore, the id that would be generated, and the command. -/
def Store.cliRun : List (S.Env × Uuid × Command) → S.State → S.State × List (Except CliError Printed)
  | [], s => (s, [])
  | (env, generated, c) :: r, s =>
    let done := S.cliBytes letter F env generated c s
    let rest := Store.cliRun r done.1
    (rest.1, done.2 :: rest.2)

end
end IndraDB
