/-!
# Model of prutalgen/pkg/prutalgen/option.go and directive.go

Strings are lists of characters.
-/
namespace Verif.Model.Gen

abbrev Str := List Char

/-- An option: name and value.  prutalgen/pkg/prutalgen/option.go:26-29 (`Option`). -/
abbrev Opt := Str × Str

/-- prutalgen/pkg/prutalgen/option.go:46-55 (`Options.Get`): the loop from the end. -/
def optGet (oo : List Opt) (name : Str) : Option Str :=
  let rec go : List Opt → Option Str
    | [] => none
    | o :: rest => if o.1 = name then some o.2 else go rest
  go oo.reverse

/-- prutalgen/pkg/prutalgen/option.go:57-60 (`Options.Is`). -/
def optIs (oo : List Opt) (name value : Str) : Bool :=
  match optGet oo name with
  | some s => s == value
  | none => false

/-- prutalgen/pkg/prutalgen/utils.go:77-78 (`isfalse`, `istrue`). -/
def isFalse (v : Str) : Bool := v == "false".toList
def isTrue (v : Str) : Bool := v == "true".toList

/-- prutalgen/pkg/prutalgen/directive.go:36-43 (`Directives.Has`). -/
def dirHas : List Str → Str → Bool
  | [], _ => false
  | s :: dd, d => if s = d then true else dirHas dd d

/-- prutalgen/pkg/prutalgen/directive.go:57-68 (`Directives.IsSet`): `none` is `(false, false)`. -/
def dirIsSet : List Str → Str → Option Bool
  | [], _ => none
  | s :: dd, d =>
    if s = d then some true
    else if s = "no_".toList ++ d then some false
    else dirIsSet dd d

/-- Go's `strings.Cut(s, sep)` for a one character separator: what is before the first occurrence and what is after (everything
and nothing when there is none). -/
def cut (sep : Char) : Str → Str × Str
  | [] => ([], [])
  | c :: s => if c = sep then ([], s) else (c :: (cut sep s).1, (cut sep s).2)

/-- Go's `unicode.IsSpace`. -/
def isSpace (c : Char) : Bool :=
  c.toNat ∈ [9, 10, 11, 12, 13, 32, 0x85, 0xA0, 0x1680, 0x2028, 0x2029, 0x202f, 0x205f, 0x3000] ||
    (0x2000 ≤ c.toNat && c.toNat ≤ 0x200a)

/-- Go's `strings.TrimSpace`. -/
def trimSpace (s : Str) : Str := ((s.dropWhile isSpace).reverse.dropWhile isSpace).reverse

/-- Go's `strings.HasPrefix` followed by the slice expression dropping the prefix. -/
def stripPrefix : Str → Str → Option Str
  | [], s => some s
  | p :: ps, c :: s => if p = c then stripPrefix ps s else none
  | _ :: _, [] => none

/-- prutalgen/pkg/prutalgen/directive.go:22 (`prutalDirectivePrefix`). -/
def directivePrefix : Str := "//prutalgen:".toList

/-- prutalgen/pkg/prutalgen/directive.go:90-96, the inner loop of `Directives.parse`: the non-empty items of a list separated by
commas.  The first argument bounds the number of iterations; the length of the string is enough. -/
def dirItems : Nat → Str → List Str
  | 0, _ => []
  | n + 1, s =>
    if s = [] then []
    else
      let d := trimSpace (cut ',' s).1
      if d = [] then dirItems n (cut ',' s).2 else d :: dirItems n (cut ',' s).2

/-- prutalgen/pkg/prutalgen/directive.go:81-98 (`Directives.parse`): what it appends. -/
def dirLines : Nat → Str → List Str
  | 0, _ => []
  | n + 1, input =>
    if input = [] then []
    else
      match stripPrefix directivePrefix (trimSpace (cut '\n' input).1) with
      | none => dirLines n (cut '\n' input).2
      | some s => dirItems s.length s ++ dirLines n (cut '\n' input).2

/-- prutalgen/pkg/prutalgen/directive.go:74-79 (`Directives.Parse`). -/
def dirParse (ss : List Str) : List Str := ss.flatMap fun s => dirLines s.length s

end Verif.Model.Gen
