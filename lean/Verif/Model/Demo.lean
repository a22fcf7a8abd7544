import Verif.Model.Device

/-!
# Model of cmd/demo

The commands of the demo that use the API, the approver, and the data saver with its file.  What is
printed is modelled as far as stated.  Starting the USB/IP server (server.go:74-96) is not.
-/

namespace VF.Demo

open VF.Fido

/-! ## The data saver -/

/-- cmd/demo/server.go:59-68 `RetrieveData`: no file gives nil, a file its content (also if it is
empty, when the slice is empty but not nil). -/
def retrieveData (file : Option Bytes) : Option Bytes := file

/-- cmd/demo/server.go:52-57 `SaveData`, interrupted after `n` steps: first the file is opened and
truncated, then the bytes are written.  Simplified: bytes reach the file one at a time and in order,
and what was written is durable. -/
def saveData (file : Option Bytes) (data : Bytes) : Nat → Option Bytes
  | 0 => file
  | n + 1 => some (data.take n)

/-! ## The approver -/

/-- `unicode.IsSpace`, used by `strings.TrimSpace` (server.go:25) -/
def isSpace (c : Char) : Bool :=
  let n := c.toNat
  (9 ≤ n && n ≤ 13) || n == 0x20 || n == 0x85 || n == 0xA0 || n == 0x1680 ||
    (0x2000 ≤ n && n ≤ 0x200a) || n == 0x2028 || n == 0x2029 || n == 0x202f || n == 0x205f ||
    n == 0x3000

/-- `strings.TrimSpace` -/
def trim (s : List Char) : List Char :=
  ((s.dropWhile isSpace).reverse.dropWhile isSpace).reverse

/-- server.go:25-29: is the line (as read, with its newline) a yes?  `lower` stands for
`unicode.ToLower`; bytes that are not UTF-8 count as U+FFFD. -/
def isYes (lower : Char → Char) (line : List Char) : Bool :=
  let response := (trim line).map lower
  response == ['y'] || response == ['y', 'e', 's']

/-- The end of a `ReadString('\n')`: the first line (with its newline) of what is in the buffer. -/
def splitLine : List Char → Option (List Char × List Char)
  | [] => none
  | c :: cs =>
    if c = '\n' then some ([c], cs)
    else
      match splitLine cs with
      | some (a, b) => some (c :: a, b)
      | none => none

/-- server.go:17 and 20: a new `bufio.Reader` on stdin reads a line.  `stdin` is what the coming
reads from the terminal return; `have_` what has been read so far.  The rest of the last read stays in
the `bufio.Reader`, which is dropped when `prompt` returns.  `none`: the input ended. -/
def readLine (have_ : List Char) : List (List Char) → Option (List Char × List (List Char))
  | [] => none
  | chunk :: rest =>
    match splitLine (have_ ++ chunk) with
    | some (line, _) => some (line, rest)
    | none => readLine (have_ ++ chunk) rest

/-- server.go:16-30 `prompt`: the answer and what remains to be read.  It panics at the end of the
input (line 23). -/
def prompt (lower : Char → Char) (stdin : List (List Char)) : Res (Bool × List (List Char)) :=
  match readLine [] stdin with
  | none => .panic .explicit
  | some (line, rest) => .ok (isYes lower line, rest)

/-- server.go:37-47 the question `ApproveClientAction` shows -/
def question (action : Action) (rp user : Bytes) : Bytes :=
  match action with
  | .getAssertion =>
    ascii "Approve login for \"" ++ rp ++ ascii "\" with identity \"" ++ user ++ ascii "\" (Y/n)?"
  | .makeCredential => ascii "Approve account creation for \"" ++ rp ++ ascii "\" (Y/n)?"
  | .u2fAuthenticate => ascii "Approve registration of U2F device (Y/n)?"
  | .u2fRegister => ascii "Approve use of U2F device (Y/n)?"

/-- server.go:37-50 `ApproveClientAction`: the question shown, the answer returned, and what remains
to be read.  (Unknown actions, lines 48-49, do not exist in the model.) -/
def approve (lower : Char → Char) (action : Action) (rp user : Bytes) (stdin : List (List Char)) :
    Res (Bytes × Bool × List (List Char)) := do
  let (b, rest) ← prompt lower stdin
  .ok (question action rp user, b, rest)

/-! ## Commands -/

/-- `hex.EncodeToString` -/
def hexDigit (n : Nat) : UInt8 := UInt8.ofNat (if n < 10 then 48 + n else 87 + n)
def hex (b : Bytes) : Bytes :=
  b.flatMap (fun x => [hexDigit (x.toNat / 16), hexDigit (x.toNat % 16)])

/-- cmd/demo/demo.go:29-36 `listIdentities`: the lines printed for the identities (shown are the first
four bytes of the id, the user and the relying party).  Slicing a shorter id or a missing user or
relying party panics. -/
def listing : List Source → Res (List Bytes)
  | [] => .ok []
  | s :: rest => do
    if s.id.length < 4 then .panic .bounds
    else
      match s.user, s.rp with
      | some user, some rp => do
        let lines ← listing rest
        .ok ((ascii "(" ++ hex (s.id.take 4) ++ ascii "): '" ++ user.name ++ ascii "' for website '" ++
          rp.name ++ ascii "'\n") :: lines)
      | _, _ => .panic .nilDeref

/-- `demo list`, with the client created by `createClient` (demo.go:30) -/
def listIdentities (E : Env) (cfg : Client.Config) (d : Device) : Res (List Bytes) × Device :=
  match Device.step E cfg d .restart with
  | (.started, d) => (listing d.world.client.vault, d)
  | (_, d) => (.panic .checkErr, d)

/-- What `demo delete` reports (demo.go:48-62). -/
inductive Deletion
  | notFound
  | multiple (ids : List Bytes)
  | done (id : Bytes)
  | couldNotFind (id : Bytes)
  | crashed
  deriving DecidableEq, Repr

/-- cmd/demo/demo.go:38-63 `deleteIdentity`, with the client created by `createClient` (line 39).  The
loop (42-47) appends the address of its variable; go.mod says `go 1.19`, so there is only one such
variable, which holds the last identity when the loop is over. -/
def deleteIdentity (E : Env) (cfg : Client.Config) (identityID : Bytes) (d : Device) :
    Deletion × Device :=
  match Device.step E cfg d .restart with
  | (.started, d) =>
    let ids := d.world.client.vault
    let matching := ids.filter (fun s => identityID.isPrefixOf (hex s.id))
    let targets := matching.map (fun _ => ids.getLast?)
    match targets with
    | [] => (.notFound, d)
    | [some target] =>
      match Device.step E cfg d (.deleteIdentity target.id) with
      | (.deleted true, d) => (.done target.id, d)
      | (.deleted false, d) => (.couldNotFind target.id, d)
      | (_, d) => (.crashed, d)
    | [none] => (.crashed, d)
    | targets => (.multiple (targets.map (fun t => (t.map (·.id)).getD [])), d)
  | (_, d) => (.crashed, d)

/-- `strconv.Itoa` of a number that is not negative -/
def itoa (n : Nat) : Bytes :=
  if n < 10 then [UInt8.ofNat (48 + n)] else itoa (n / 10) ++ [UInt8.ofNat (48 + n % 10)]
  termination_by n

/-- What `demo pin set` reports (demo.go:79-92). -/
inductive PinSet
  | negative
  | tooShort
  | done
  | crashed
  deriving DecidableEq, Repr

/-- cmd/demo/demo.go:79-92 `setPIN` -/
def setPIN (E : Env) (cfg : Client.Config) (newPIN : Int) (d : Device) : PinSet × Device :=
  if newPIN < 0 then (.negative, d)
  else
    let pin := itoa newPIN.toNat
    if pin.length < 4 then (.tooShort, d)
    else
      match Device.step E cfg d .restart with
      | (.started, d) =>
        match Device.step E cfg d (.setPIN pin) with
        | (.done, d) => (.done, d)
        | (_, d) => (.crashed, d)
      | (_, d) => (.crashed, d)

/-- A digit in the given base. -/
def digitOf (base : Nat) (c : UInt8) : Option Nat :=
  let n := c.toNat
  let v := if 48 ≤ n ∧ n ≤ 57 then n - 48 else if 97 ≤ n ∧ n ≤ 122 then n - 87
    else if 65 ≤ n ∧ n ≤ 90 then n - 55 else 99
  if v < base then some v else none

def digits (base : Nat) (acc : Nat) : Bytes → Option Nat
  | [] => some acc
  | c :: cs =>
    match digitOf base c with
    | some v => digits base (acc * base + v) cs
    | none => none

/-- The flag `--pin` (demo.go:172) is an `IntVar`: pflag parses it with `strconv.ParseInt(s, 0, 64)`,
which chooses the base by the prefix: 0x, 0b, 0o, or 0 for octal.  Simplified: no sign, no
underscores. -/
def parsePIN (s : Bytes) : Option Int :=
  let r := match s with
    | [] => none
    | 48 :: 120 :: ds => if ds = [] then none else digits 16 0 ds
    | 48 :: 88 :: ds => if ds = [] then none else digits 16 0 ds
    | 48 :: 98 :: ds => if ds = [] then none else digits 2 0 ds
    | 48 :: 66 :: ds => if ds = [] then none else digits 2 0 ds
    | 48 :: 111 :: ds => if ds = [] then none else digits 8 0 ds
    | 48 :: 79 :: ds => if ds = [] then none else digits 8 0 ds
    | 48 :: ds => digits 8 0 ds
    | ds => digits 10 0 ds
  match r with
  | some n => if n < 2 ^ 63 then some (Int.ofNat n) else none
  | none => none

/-- `demo pin set --pin s` -/
def setPINCommand (E : Env) (cfg : Client.Config) (s : Bytes) (d : Device) :
    Option (PinSet × Device) :=
  match parsePIN s with
  | some n => some (setPIN E cfg n d)
  | none => none

end VF.Demo
