import Verif.Py.Core
/-!
# Model of `epsilon/scripts/certcreate.py`

The command line is parsed by Twisted's `usage.Options`, which uses `getopt.getopt` of the standard library; both are modelled
from their sources.  `KeyPair.generate().selfSignedCert`, `open` and `int` are given by the environment.
-/
namespace Verif.Certcreate
open Verif.Py

abbrev Str := List Nat

def chars (s : String) : Str := s.toList.map Char.toNat

/-- An option: its long name, its letter, and whether it takes an argument. -/
structure Opt where
  long : Str
  short : Option Nat
  hasArg : Bool
  deriving DecidableEq, Repr

/-- `long_has_args` (CPython `Lib/getopt.py`): the option that a long name, perhaps shortened, stands for. -/
def longHasArgs (T : List Opt) (n : Str) : Option Opt :=
  match T.filter fun o => n.isPrefixOf o.long with
  | [] => none
  | p :: ps =>
    match (p :: ps).find? fun o => o.long == n with
    | some o => some o
    | none => if ps = [] then some p else none

/-- `do_longs`: `arg` is the argument without `--`. -/
def doLongs (T : List Opt) (arg : Str) (args : List Str) : Option ((Str × Str) × List Str) :=
  let name := arg.takeWhile (· ≠ 61)
  let value := if 61 ∈ arg then some ((arg.dropWhile (· ≠ 61)).drop 1) else none
  match longHasArgs T name with
  | none => none
  | some o =>
    if o.hasArg then
      match value, args with
      | some v, args => some ((o.long, v), args)
      | none, [] => none
      | none, v :: args => some ((o.long, v), args)
    else
      match value with
      | some _ => none
      | none => some ((o.long, []), args)

/-- `short_has_arg`; the letter becomes the long name at once (`usage.Options.synonyms`). -/
def shortOpt (T : List Opt) (c : Nat) : Option Opt := T.find? fun o => o.short == some c

/-- `do_shorts`: `optstring` is the argument without `-`. -/
def doShorts (T : List Opt) : Str → List Str → Option (List (Str × Str) × List Str)
  | [], args => some ([], args)
  | c :: r, args =>
    match shortOpt T c with
    | none => none
    | some o =>
      if o.hasArg then
        match r, args with
        | [], [] => none
        | [], v :: args => some ([(o.long, v)], args)
        | r, args => some ([(o.long, r)], args)
      else (doShorts T r args).map fun x => ((o.long, []) :: x.1, x.2)

/-- `getopt.getopt`: the options with their arguments, and the remaining arguments; `none` is `GetoptError`.  The number bounds
the rounds of the loop; each removes an argument. -/
def getoptGo (T : List Opt) : Nat → List Str → Option (List (Str × Str) × List Str)
  | 0, args => some ([], args)
  | _ + 1, [] => some ([], [])
  | n + 1, a :: args =>
    match a with
    | 45 :: 45 :: [] => some ([], args)
    | 45 :: 45 :: arg =>
      match doLongs T arg args with
      | none => none
      | some (p, args) => (getoptGo T n args).map fun x => (p :: x.1, x.2)
    | 45 :: c :: r =>
      match doShorts T (c :: r) args with
      | none => none
      | some (ps, args) => (getoptGo T n args).map fun x => (ps ++ x.1, x.2)
    | a => some ([], a :: args)

def getopt (T : List Opt) (args : List Str) : Option (List (Str × Str) × List Str) := getoptGo T args.length args

/-- The value of an option: text, or a number (a flag, or the default serial number). -/
inductive Val where
  | str (s : Str)
  | int (n : Int)
  deriving DecidableEq, Repr

/-- `Options.optParameters` (`certcreate.py:10-21`). -/
def parameters : List (Str × Nat × Val) :=
  [(chars "country", 67, .str (chars "US")),
   (chars "state", 115, .str (chars "New York")),
   (chars "city", 99, .str (chars "New York")),
   (chars "organization", 111, .str (chars "Divmod LLC")),
   (chars "unit", 117, .str (chars "Security")),
   (chars "hostname", 104, .str (chars "divmod.com")),
   (chars "email", 101, .str (chars "support@divmod.org")),
   (chars "filename", 102, .str (chars "server.pem")),
   (chars "serial-number", 83, .int 1)]

def quiet : Str := chars "quiet"
def help : Str := chars "help"
def version : Str := chars "version"

/-- All options: also `optFlags` (`certcreate.py:23-25`) and those every `usage.Options` has. -/
def table : List Opt :=
  ⟨quiet, some 113, false⟩ :: parameters.map (fun p => ⟨p.1, some p.2.1, true⟩) ++ [⟨version, none, false⟩, ⟨help, none, false⟩]

/-- The values before anything is parsed. -/
def defaults : Dict Str Val := (quiet, .int 0) :: parameters.map fun p => (p.1, p.2.2)

inductive Outcome where
  /-- the certificate -/
  | made (cert : Nat)
  /-- `SystemExit` with a message -/
  | usage
  /-- `SystemExit(0)`, after showing the help or the version -/
  | shown
  | raised (e : PyErr)
  deriving DecidableEq, Repr

/-- The loop in `Options.parseOptions` over what `getopt` found. -/
def dispatch : List (Str × Str) → Dict Str Val → Except Outcome (Dict Str Val)
  | [], d => .ok d
  | (k, v) :: os, d =>
    if k = help ∨ k = version then .error .shown
    else if k = quiet then dispatch os (Dict.set d k (.int 1))
    else dispatch os (Dict.set d k (.str v))

/-- `usage.Options.parseOptions`; `parseArgs` takes no arguments. -/
def parseOptions (args : List Str) : Except Outcome (Dict Str Val) :=
  match getopt table args with
  | none => .error .usage
  | some (os, rest) =>
    match dispatch os defaults with
    | .error e => .error e
    | .ok d => if rest = [] then .ok d else .error .usage

/-- What is outside. -/
structure Env where
  /-- `int(text)` -/
  int : Str → Except PyErr Int
  /-- `KeyPair.generate().selfSignedCert(serialNumber, **sslopt)` -/
  sign : Int → Dict Str Val → Except PyErr Nat
  /-- `open(filename, 'wb')` and writing -/
  write : Str → Except PyErr Unit

inductive Effect where
  | wrote (file : Str) (cert : Nat)
  | printed (cert : Nat)
  deriving DecidableEq, Repr

/-- The pairs of `createSSLCertificate` (`certcreate.py:31-37`). -/
def fields : List (Str × Str) :=
  [(chars "country", chars "C"), (chars "state", chars "ST"), (chars "city", chars "L"), (chars "organization", chars "O"),
   (chars "unit", chars "OU"), (chars "hostname", chars "CN"), (chars "email", chars "emailAddress")]

/-- The loop (`certcreate.py:30-38`). -/
def subject (opts : Dict Str Val) : List (Str × Str) → Dict Str Val → Except PyErr (Dict Str Val)
  | [], d => .ok d
  | (x, y) :: r, d =>
    match Dict.get? opts x with
    | none => .error .keyError
    | some v => subject opts r (Dict.set d y v)

/-- `int(opts['serial-number'])` (`certcreate.py:39`). -/
def serialNumber (E : Env) : Val → Except PyErr Int
  | .int n => .ok n
  | .str s => E.int s

/-- `createSSLCertificate` (`certcreate.py:29-46`).  A number is no file name here (`open` would take it for a descriptor). -/
def create (E : Env) (opts : Dict Str Val) : List Effect × Outcome :=
  match subject opts fields [] with
  | .error e => ([], .raised e)
  | .ok sslopt =>
    match Dict.get? opts (chars "serial-number"), Dict.get? opts (chars "filename"), Dict.get? opts quiet with
    | some serial, some file, some q =>
      match serialNumber E serial with
      | .error e => ([], .raised e)
      | .ok n =>
        match E.sign n sslopt with
        | .error e => ([], .raised e)
        | .ok cert =>
          match file with
          | .int _ => ([], .raised .typeError)
          | .str f =>
            match E.write f with
            | .error e => ([], .raised e)
            | .ok _ => (.wrote f cert :: (if q = Val.int 0 then [.printed cert] else []), .made cert)
    | _, _, _ => ([], .raised .keyError)

/-- `main` (`certcreate.py:50-63`). -/
def main (E : Env) (args : List Str) : List Effect × Outcome :=
  match parseOptions args with
  | .error e => ([], e)
  | .ok o => create E o

end Verif.Certcreate
