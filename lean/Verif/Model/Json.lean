import Verif.Model.Proto

/-! # JSON, as `to_json_binary` writes it and `from_json` reads it

All messages, queries and answers between contracts travel as JSON texts. Writer and reader are those of the dependency
serde-json-wasm; they are modelled after its documentation and RFC 8259, in two steps: text to tree (here) and tree to
value (`Verif/Model/Schema.lean`). Numbers are natural numbers, the only ones that occur. -/

namespace Hpl

/-- A JSON value. -/
inductive Json where
  | null
  | bool (b : Bool)
  | num (n : Nat)
  | str (s : String)
  | arr (l : List Json)
  | obj (l : List (String × Json))

namespace Json

/-! ## Writing -/

/-- A hexadecimal digit. -/
def hexDigit (n : Nat) : Char := if n < 10 then Char.ofNat (48 + n) else Char.ofNat (87 + n)

/-- A character inside a string: quotes, backslashes and control characters are escaped. -/
def escape (c : Char) : List Char :=
  if c = '"' then ['\\', '"']
  else if c = '\\' then ['\\', '\\']
  else if c.toNat = 8 then ['\\', 'b']
  else if c.toNat = 9 then ['\\', 't']
  else if c.toNat = 10 then ['\\', 'n']
  else if c.toNat = 12 then ['\\', 'f']
  else if c.toNat = 13 then ['\\', 'r']
  else if c.toNat < 32 then ['\\', 'u', '0', '0', hexDigit (c.toNat / 16), hexDigit (c.toNat % 16)]
  else [c]

/-- A string after its opening quote. -/
def closeString (s : List Char) : List Char := s.flatMap escape ++ ['"']

mutual
/-- The text of a value, without white space. -/
def print : Json → List Char
  | .null => ['n', 'u', 'l', 'l']
  | .bool true => ['t', 'r', 'u', 'e']
  | .bool false => ['f', 'a', 'l', 's', 'e']
  | .num n => n.repr.toList
  | .str s => '"' :: closeString s.toList
  | .arr [] => ['[', ']']
  | .arr (j :: t) => '[' :: (print j ++ printItems t)
  | .obj [] => ['{', '}']
  | .obj ((k, j) :: t) => '{' :: '"' :: (closeString k.toList ++ ':' :: (print j ++ printMembers t))

/-- The further elements of a list. -/
def printItems : List Json → List Char
  | [] => [']']
  | j :: t => ',' :: (print j ++ printItems t)

/-- The further members of an object. -/
def printMembers : List (String × Json) → List Char
  | [] => ['}']
  | (k, j) :: t => ',' :: '"' :: (closeString k.toList ++ ':' :: (print j ++ printMembers t))
end

/-! ## Reading -/

/-- White space. -/
def isWs (c : Char) : Bool := c = ' ' || c = '\n' || c = '\t' || c = '\r'

/-- Without leading white space. -/
def ws (cs : List Char) : List Char := cs.dropWhile isWs

/-- The value of a hexadecimal digit. -/
def hexValue (c : Char) : Option Nat :=
  if 48 ≤ c.toNat ∧ c.toNat ≤ 57 then some (c.toNat - 48)
  else if 97 ≤ c.toNat ∧ c.toNat ≤ 102 then some (c.toNat - 87)
  else if 65 ≤ c.toNat ∧ c.toNat ≤ 70 then some (c.toNat - 55)
  else none

/-- The character an escape sequence of two characters stands for. -/
def unescape (c : Char) : Option Char :=
  if c = '"' then some '"'
  else if c = '\\' then some '\\'
  else if c = '/' then some '/'
  else if c = 'b' then some (Char.ofNat 8)
  else if c = 't' then some (Char.ofNat 9)
  else if c = 'n' then some (Char.ofNat 10)
  else if c = 'f' then some (Char.ofNat 12)
  else if c = 'r' then some (Char.ofNat 13)
  else none

/-- The character four hexadecimal digits stand for. Simplified: surrogates are refused (the reader accepts pairs of
them, which the writer never produces). -/
def unicode (a b c d : Char) : Option Char := do
  let w ← hexValue a
  let x ← hexValue b
  let y ← hexValue c
  let z ← hexValue d
  let n := ((w * 16 + x) * 16 + y) * 16 + z
  if 0xd800 ≤ n ∧ n ≤ 0xdfff then none else some (Char.ofNat n)

/-- Add a character to the string read. -/
def push (c : Char) (p : List Char × List Char) : List Char × List Char := (c :: p.1, p.2)

/-- The string after an opening quote, and the rest. -/
def string : List Char → Option (List Char × List Char)
  | [] => none
  | c :: r =>
    if c = '"' then some ([], r)
    else if c = '\\' then
      match r with
      | [] => none
      | e :: r' =>
        if e = 'u' then
          match r' with
          | a :: b :: x :: y :: r'' => do
            let u ← unicode a b x y
            let p ← string r''
            return push u p
          | _ => none
        else do
          let u ← unescape e
          let p ← string r'
          return push u p
    else if c.toNat < 32 then none
    else do
      let p ← string r
      return push c p

/-- The given word at the beginning. -/
def word (w : List Char) (cs : List Char) : Option (List Char) :=
  if cs.take w.length = w then some (cs.drop w.length) else none

/-- A key with its colon, after the opening quote. -/
def key (cs : List Char) : Option (String × List Char) := do
  let p ← string cs
  let r ← word [':'] (ws p.2)
  return (String.ofList p.1, r)

mutual
/-- A value at the beginning and the rest; `fuel` bounds the depth. -/
def value : Nat → List Char → Option (Json × List Char)
  | 0, _ => none
  | n + 1, cs =>
    match ws cs with
    | [] => none
    | c :: r =>
      if c = 'n' then (word ['u', 'l', 'l'] r).map (fun r => (.null, r))
      else if c = 't' then (word ['r', 'u', 'e'] r).map (fun r => (.bool true, r))
      else if c = 'f' then (word ['a', 'l', 's', 'e'] r).map (fun r => (.bool false, r))
      else if c = '"' then (string r).map (fun p => (.str (String.ofList p.1), p.2))
      else if c = '[' then
        match ws r with
        | [] => none
        | e :: r' =>
          if e = ']' then some (.arr [], r')
          else do
            let x ← value n r
            let l ← items n x.2
            return (.arr (x.1 :: l.1), l.2)
      else if c = '{' then
        match ws r with
        | [] => none
        | e :: r' =>
          if e = '}' then some (.obj [], r')
          else if e = '"' then do
            let k ← key r'
            let x ← value n k.2
            let l ← members n x.2
            return (.obj ((k.1, x.1) :: l.1), l.2)
          else none
      else if c.isDigit then
        some (.num (Nat.ofDigitChars 10 ((c :: r).takeWhile Char.isDigit) 0), (c :: r).dropWhile Char.isDigit)
      else none

/-- The further elements of a list. -/
def items : Nat → List Char → Option (List Json × List Char)
  | 0, _ => none
  | n + 1, cs =>
    match ws cs with
    | [] => none
    | c :: r =>
      if c = ']' then some ([], r)
      else if c = ',' then do
        let x ← value n r
        let l ← items n x.2
        return (x.1 :: l.1, l.2)
      else none

/-- The further members of an object. -/
def members : Nat → List Char → Option (List (String × Json) × List Char)
  | 0, _ => none
  | n + 1, cs =>
    match ws cs with
    | [] => none
    | c :: r =>
      if c = '}' then some ([], r)
      else if c = ',' then do
        let r' ← word ['"'] (ws r)
        let k ← key r'
        let x ← value n k.2
        let l ← members n x.2
        return ((k.1, x.1) :: l.1, l.2)
      else none
end

/-- The value a text stands for: nothing but white space may follow. -/
def parse (cs : List Char) : Option Json :=
  match value cs.length cs with
  | some (j, r) => if ws r = [] then some j else none
  | none => none

/-- `to_json_binary`: the text as UTF-8. -/
def toBinary (j : Json) : Bytes := Proto.utf8 (String.ofList (print j))

/-- `from_json`, first step. -/
def ofBinary (b : Bytes) : Option Json := (Proto.ofUtf8 b).bind (fun s => parse s.toList)

end Json

end Hpl
