import Verif.Model.Config

/-!
# The access token kept by `abq login`

`crates/abq_cli/src/abq_config.rs`, and its callers in `crates/abq_cli/src/main.rs`. The TOML library is a parameter. A path is
a text; what is in no file is not there.
-/

namespace Abq.Login

/-- The TOML library, with the UTF-8 around it: the contents of a configuration file with an access token (`toml::to_string`,
`abq_config.rs:49`), and the access token in the contents of a file, if it is a configuration file (`fs::read_to_string`,
`toml::from_str`, `abq_config.rs:56-57`). -/
structure Toml where
  write : String → List Nat
  read : List Nat → Option String

/-- The variables that say where the configuration file is: `ABQ_CONFIG_FILE` (`main.rs:769`), and the home directory, which the
conventional place is derived from (`abq_config.rs:26-36`). -/
structure Env where
  configFile : Option String
  home : Option String
deriving DecidableEq, Repr

/-- `main.rs:768-780` `get_abq_config_filepath` with `abq_config.rs:22-38` `abq_config_filepath`. The outer `none` is the panic of
`abq_config.rs:33`. The conventional place is `.abq/config.toml` in the home directory (`abq_config.rs:81-84`). -/
def configPath (e : Env) : Option (Option String) :=
  match e.configFile with
  | some path => if path.isEmpty then some none else some (some path)
  | none =>
    match e.home with
    | none => none
    | some home => some (some (home ++ "/.abq/config.toml"))

/-- The contents of files (`abq_config.rs:50, 56`). -/
abbrev Files := String → Option (List Nat)

/-- `abq_config.rs:54-58` `read_abq_config`. That a file that is there cannot be read is left out: it has the same effect as one
that is not there. -/
def readConfig (toml : Toml) (files : Files) (path : Option String) : Option String :=
  match path with
  | none => none
  | some p =>
    match files p with
    | none => none
    | some bytes => toml.read bytes

/-- What a command goes on with (`main.rs:404-410`): it panics, or has an access token, or none. -/
inductive Uses where
  | panics
  | token (t : Option String)
deriving DecidableEq, Repr

/-- `main.rs:404-410`, `main.rs:525-531`: the token given with `--access-token` or `RWX_ACCESS_TOKEN`, or else the one kept. -/
def uses (toml : Toml) (e : Env) (files : Files) (given : Option String) : Uses :=
  match given with
  | some t => .token (some t)
  | none =>
    match configPath e with
    | none => .panics
    | some path => .token (readConfig toml files path)

/-- How writing the file goes (`abq_config.rs:44-50`): there is no directory for it and none can be made; the file cannot be
opened; or `fs::write`, which empties the file first, writes it all, or comes to an end after some bytes, with an error or
with the end of the process. -/
inductive Disk where
  | fine
  | noDir
  | noFile
  | cut (bytes : Nat) (killed : Bool)
deriving DecidableEq, Repr

/-- A call of `abq login` (`main.rs:260-292`): the token given with `--access-token` or `RWX_ACCESS_TOKEN`, and the line typed,
which is asked for if none is given; `none` if it is not Unicode. -/
structure Call where
  env : Env
  given : Option String
  typed : Option String
  disk : Disk
deriving DecidableEq, Repr

/-- How `abq login` ends (`main.rs:260-292`). -/
inductive Out where
  /-- "Your access token is now stored at: …" -/
  | stored (path : String)
  /-- "Failed to locate ABQ config file." -/
  | noPlace
  | failed
  | killed
  | panicked
deriving DecidableEq, Repr

/-- `char::is_whitespace` (of `str::trim`, `main.rs:276`): White_Space of Unicode. -/
def isSpace (c : Char) : Bool :=
  let n := c.toNat
  (9 ≤ n && n ≤ 13) || n = 0x20 || n = 0x85 || n = 0xA0 || n = 0x1680 || (0x2000 ≤ n && n ≤ 0x200A) ||
    n = 0x2028 || n = 0x2029 || n = 0x202F || n = 0x205F || n = 0x3000

/-- `str::trim` (`main.rs:276`). -/
def trim (s : String) : String :=
  String.ofList ((s.toList.dropWhile isSpace).reverse.dropWhile isSpace).reverse

/-- The token to keep (`main.rs:261-278`); `none` is the panic of main.rs:273. -/
def Call.token (c : Call) : Option String :=
  match c.given with
  | some t => some t
  | none =>
    match c.typed with
    | none => none
    | some line => some (trim line)

/-- `abq_config.rs:40-52` `write_abq_config`, and the end of `abq login` (`main.rs:280-287`). -/
def store (toml : Toml) (files : Files) (path token : String) : Disk → Files × Out
  | .noDir => (files, .failed)
  | .noFile => (files, .failed)
  | .fine => (fun p => if p = path then some (toml.write token) else files p, .stored path)
  | .cut n killed =>
    (fun p => if p = path then some ((toml.write token).take n) else files p, if killed then .killed else .failed)

/-- `main.rs:260-292` `abq login`. -/
def login (toml : Toml) (files : Files) (c : Call) : Files × Out :=
  match c.token with
  | none => (files, .panicked)
  | some token =>
    match configPath c.env with
    | none => (files, .panicked)
    | some none => (files, .noPlace)
    | some (some path) => store toml files path token c.disk

/-- A history of logins, one after the other (`main.rs:260-292`). -/
def logins (toml : Toml) (files : Files) (cs : List Call) : Files := cs.foldl (fun f c => (login toml f c).1) files

/-- `abq test` (`main.rs:371-498`) on a machine with these files; `none` is the panic of `abq_config.rs:33`. The file is only
looked for if no token is given and not in local mode (`main.rs:401-410`), after the files given have been read
(`main.rs:401-402`). -/
def test (toml : Toml) (e : Env) (files : Files) (w : Config.World) (a : Config.TestArgs) :
    Option (Except Config.Err Config.TestPlan) :=
  if a.localMode then some (Config.testPlan { w with storedToken := none } a)
  else if a.tlsCert = some none ∨ a.tlsKey = some none then some (.error .unreadable)
  else
    match uses toml e files a.accessToken with
    | .panics => none
    | .token t => some (Config.testPlan { w with storedToken := none } { a with accessToken := t })

/-- `abq report` (`main.rs:500-567`) on a machine with these files; `none` is the panic of `abq_config.rs:33`. -/
def report (toml : Toml) (e : Env) (files : Files) (w : Config.World) (a : Config.ReportArgs) :
    Option (Except Config.Err (String × Config.Connection)) :=
  if a.runId.or (Config.inferredRunId w.env) = none then some (.error .noRunId)
  else if a.tlsCert = some none then some (.error .unreadable)
  else
    match uses toml e files a.accessToken with
    | .panics => none
    | .token t => some (Config.reportPlan { w with storedToken := none } { a with accessToken := t })

end Abq.Login
