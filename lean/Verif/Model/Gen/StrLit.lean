/-!
# Model of prutalgen/internal/protobuf/text/decode_string.go: string literals

Bytes are natural numbers (below 256).
-/
namespace Verif.Model.Gen

/-- Go's `utf8.DecodeRune`: the rune and its size; `none` is `(RuneError, 1)`, for input that does not start with a valid encoding.
(The case of empty input does not arise.) -/
def decodeRune : List Nat → Option (Nat × Nat)
  | [] => none
  | a :: s =>
    let cont (b : Nat) : Bool := 0x80 ≤ b && b ≤ 0xBF
    if a < 0x80 then some (a, 1)
    else if 0xC2 ≤ a && a ≤ 0xDF then
      match s with
      | b :: _ => if cont b then some (a % 32 * 64 + b % 64, 2) else none
      | _ => none
    else if 0xE0 ≤ a && a ≤ 0xEF then
      match s with
      | b :: c :: _ =>
        if (a ≠ 0xE0 || 0xA0 ≤ b) && (a ≠ 0xED || b ≤ 0x9F) && cont b && cont c then
          some (a % 16 * 4096 + b % 64 * 64 + c % 64, 3)
        else none
      | _ => none
    else if 0xF0 ≤ a && a ≤ 0xF4 then
      match s with
      | b :: c :: d :: _ =>
        if (a ≠ 0xF0 || 0x90 ≤ b) && (a ≠ 0xF4 || b ≤ 0x8F) && cont b && cont c && cont d then
          some (a % 8 * 262144 + b % 64 * 4096 + c % 64 * 64 + d % 64, 4)
        else none
      | _ => none
    else none

/-- Go's `append(out, string(r)...)` for a valid rune (`utf8.AppendRune`). -/
def encodeRune (r : Nat) : List Nat :=
  if r ≤ 0x7F then [r]
  else if r ≤ 0x7FF then [0xC0 + r / 64, 0x80 + r % 64]
  else if r ≤ 0xFFFF then [0xE0 + r / 4096, 0x80 + r / 64 % 64, 0x80 + r % 64]
  else [0xF0 + r / 262144, 0x80 + r / 4096 % 64, 0x80 + r / 64 % 64, 0x80 + r % 64]

/-- prutalgen/internal/protobuf/text/decode_string.go:149-162 (`indexNeedEscapeInString`): what is counted. -/
def plainByte (c : Nat) : Bool := !(c < 32 || c = 34 || c = 39 || c = 92 || c ≥ 0x7f)

/-- The value of a digit in `strconv.ParseUint`, as a byte. -/
def byteDigit (c : Nat) : Nat :=
  if 48 ≤ c ∧ c ≤ 57 then c - 48
  else if 97 ≤ c ∧ c ≤ 122 then c - 97 + 10
  else if 65 ≤ c ∧ c ≤ 90 then c - 65 + 10
  else 36

/-- Go's `strconv.ParseUint(s, base, bits)`; `lim` is 2 to the power `bits`. -/
def parseUint (base lim : Nat) (s : List Nat) : Option Nat :=
  if s = [] then none
  else if s.all (fun c => byteDigit c < base) then
    let n := s.foldl (fun n c => n * base + byteDigit c) 0
    if n < lim then some n else none
  else none

/-- `01234567` and `0123456789abcdefABCDEF`. -/
def isOctByte (c : Nat) : Bool := 48 ≤ c && c ≤ 55
def isHexByte (c : Nat) : Bool := (48 ≤ c && c ≤ 57) || (97 ≤ c && c ≤ 102) || (65 ≤ c && c ≤ 70)

/-- prutalgen/internal/protobuf/text/decode_string.go:71-87: the escapes of one letter. -/
def simpleEscape (r : Nat) : Option Nat :=
  if r = 34 ∨ r = 39 ∨ r = 92 ∨ r = 63 then some r
  else if r = 97 then some 7
  else if r = 98 then some 8
  else if r = 110 then some 10
  else if r = 114 then some 13
  else if r = 116 then some 9
  else if r = 118 then some 11
  else if r = 102 then some 12
  else none

/-- prutalgen/internal/protobuf/text/decode_string.go:67-140: a backslash has been seen (`s` is `in[1:]`): what is appended to `out`, and the
new `in`. -/
def escape : List Nat → Option (List Nat × List Nat)
  | [] => none
  | r :: s =>
    match simpleEscape r with
    | some v => some ([v], s)
    | none =>
      if isOctByte r then
        let ds := ((r :: s).takeWhile isOctByte).take 3
        match parseUint 8 256 ds with
        | some v => some ([v], (r :: s).drop ds.length)
        | none => none
      else if r = 120 then
        let ds := (s.takeWhile isHexByte).take 2
        match parseUint 16 256 ds with
        | some v => some ([v], s.drop ds.length)
        | none => none
      else if r = 117 ∨ r = 85 then
        let n := if r = 85 then 8 else 4
        if s.length < n then none
        else
          match parseUint 16 (2 ^ 32) (s.take n) with
          | none => none
          | some v =>
            if 0x10FFFF < v then none
            else if 0xD800 ≤ v ∧ v < 0xE000 then
              match s.drop n with
              | b :: u :: d1 :: d2 :: d3 :: d4 :: rest =>
                match parseUint 16 (2 ^ 16) [d1, d2, d3, d4] with
                | none => none
                | some w =>
                  if b = 92 ∧ u = 117 ∧ v < 0xDC00 ∧ 0xDC00 ≤ w ∧ w < 0xE000 then
                    some (encodeRune ((v - 0xD800) * 1024 + (w - 0xDC00) + 0x10000), rest)
                  else none
              | _ => none
            else some (encodeRune v, s.drop n)
      else none

/-- prutalgen/internal/protobuf/text/decode_string.go:57-146: the loop of `parseString`; the first argument bounds the number of
iterations. -/
def stringLoop (quote : Nat) : Nat → List Nat → List Nat → Option (List Nat)
  | 0, _, _ => none
  | fuel + 1, s, out =>
    if s = [] then none
    else
      match decodeRune s with
      | none => none
      | some (r, n) =>
        if r = 0 ∨ r = 10 then none
        else if r = quote then some out
        else if r = 92 then
          match escape (s.drop 1) with
          | none => none
          | some (x, s') => stringLoop quote fuel s' (out ++ x)
        else
          let i := ((s.drop n).takeWhile plainByte).length
          stringLoop quote fuel (s.drop (n + i)) (out ++ s.take (n + i))

/-- prutalgen/internal/protobuf/text/decode_string.go:47-147 and 164-170 (`parseString`, `UnmarshalString`). -/
def unmarshalString : List Nat → Option (List Nat)
  | [] => none
  | quote :: s =>
    let i := (s.takeWhile plainByte).length
    stringLoop quote (s.length + 1) (s.drop i) (s.take i)

end Verif.Model.Gen
