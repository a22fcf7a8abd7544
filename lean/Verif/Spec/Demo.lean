import Verif.Model.Demo

/-!
# Specification: the demo
-/

namespace VF.Spec.Demo

open VF.Fido VF.Demo

/-- What is assumed of `unicode.ToLower`: the letters of "yes" have one upper case variant each. -/
def LowerOk (lower : Char → Char) : Prop :=
  (∀ c, lower c = 'y' ↔ c = 'y' ∨ c = 'Y') ∧ (∀ c, lower c = 'e' ↔ c = 'e' ∨ c = 'E') ∧
    (∀ c, lower c = 's' ↔ c = 's' ∨ c = 'S')

/-- "y" and "yes" in any case. -/
def yesWords : List (List Char) :=
  [['y'], ['Y'],
   ['y', 'e', 's'], ['Y', 'e', 's'], ['y', 'E', 's'], ['Y', 'E', 's'],
   ['y', 'e', 'S'], ['Y', 'e', 'S'], ['y', 'E', 'S'], ['Y', 'E', 'S']]

/-- An explicit yes, surrounded by white space only. -/
def Yes (line : List Char) : Prop :=
  ∃ before word after, line = before ++ word ++ after ∧ word ∈ yesWords ∧
    (∀ c ∈ before, isSpace c = true) ∧ (∀ c ∈ after, isSpace c = true)

/-- The text occurs in the question. -/
def Mentions (question text : Bytes) : Prop := ∃ a b, question = a ++ text ++ b

/-- The question names the action, and the relying party and the user where there are any. -/
def Names (action : Action) (rp user question : Bytes) : Prop :=
  match action with
  | .getAssertion =>
    Mentions question (ascii "login") ∧ Mentions question rp ∧ Mentions question user
  | .makeCredential => Mentions question (ascii "account creation") ∧ Mentions question rp
  | .u2fRegister => Mentions question (ascii "registration")
  | .u2fAuthenticate => Mentions question (ascii "use of")

/-- The lines of an input, each without its newline; what follows the last newline is no line. -/
def linesFrom (current : List Char) : List Char → List (List Char)
  | [] => []
  | c :: cs => if c = '\n' then current :: linesFrom [] cs else linesFrom (current ++ [c]) cs

def lines (input : List Char) : List (List Char) := linesFrom [] input

/-- The answers to so many questions in a row. -/
def answers (lower : Char → Char) : Nat → List (List Char) → Res (List Bool)
  | 0, _ => .ok []
  | n + 1, stdin =>
    match prompt lower stdin with
    | .ok (b, rest) =>
      match answers lower n rest with
      | .ok bs => .ok (b :: bs)
      | .panic c => .panic c
    | .panic c => .panic c

/-- A PIN as users know it: at least four digits, also with leading zeros. -/
def IsPIN (typed : Bytes) : Prop := 4 ≤ typed.length ∧ ∀ c ∈ typed, 48 ≤ c.toNat ∧ c.toNat ≤ 57

/-- Lower case hexadecimal form: for each byte its high and its low digit. -/
def hexForm : Bytes → Bytes
  | [] => []
  | b :: bs => digits[b.toNat / 16]! :: digits[b.toNat % 16]! :: hexForm bs
where digits : Bytes := ascii "0123456789abcdef"

/-- The lower case hexadecimal form of an id starts with the text. -/
def HasPrefix (text : Bytes) (s : Source) : Prop := text <+: hexForm s.id

/-- The line `demo list` has to print for a credential. -/
def IsLineOf (s : Source) (line : Bytes) : Prop :=
  ∃ user rp, s.user = some user ∧ s.rp = some rp ∧
    line = ascii "(" ++ hexForm (s.id.take 4) ++ ascii "): '" ++ user.name ++ ascii "' for website '" ++
      rp.name ++ ascii "'\n"

/-- One line per credential, in order. -/
def Lists (v : List Source) (lines : List Bytes) : Prop :=
  lines.length = v.length ∧ ∀ (i : Nat) s line, v[i]? = some s → lines[i]? = some line → IsLineOf s line

end VF.Spec.Demo
