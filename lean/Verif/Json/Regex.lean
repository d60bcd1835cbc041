import Verif.Types.Model

/-!
The regular expressions of `IOHaptics/src/IOJson.cpp` and the checks made with them.

`Re` has what these expressions need of the ECMAScript grammar.  `Re.run` is the backtracking match of
`std::regex`: the ways to match a prefix, in order of preference, each with what remains of the text and
the groups matched.  `^` and `$` are the ends of the text (`std::regex::multiline` is not set).
-/

namespace Haptics.Json
open Haptics

/-- The groups matched so far, the last one first. -/
abbrev Groups := List (Nat × Str)

inductive Re where
  /-- one character of a class -/
  | cls (p : UInt8 → Bool)
  /-- `$` -/
  | stop
  | seq (a b : Re)
  /-- `(…)?`, greedy -/
  | opt (a : Re)
  /-- `[…]*`, greedy -/
  | star (p : UInt8 → Bool)
  | group (n : Nat) (a : Re)

/-- What remains after greedily matching `[…]*`, in order of preference. -/
def starRun (p : UInt8 → Bool) : Str → List Str
  | [] => [[]]
  | b :: s => if p b then starRun p s ++ [b :: s] else [b :: s]

/-- The matches of an expression at the beginning of a text. -/
def Re.run : Re → Str × Groups → List (Str × Groups)
  | .cls _, ([], _) => []
  | .cls p, (b :: s, g) => if p b then [(s, g)] else []
  | .stop, ([], g) => [([], g)]
  | .stop, (_ :: _, _) => []
  | .seq a b, x => (a.run x).flatMap b.run
  | .opt a, x => a.run x ++ [x]
  | .star p, x => (starRun p x.1).map (fun s => (s, x.2))
  | .group n a, x => (a.run x).map (fun y => (y.1, (n, x.1.take (x.1.length - y.1.length)) :: y.2))

/-- The ends of a text, longest first. -/
def suffixes : Str → List Str
  | [] => [[]]
  | b :: s => (b :: s) :: suffixes s

/-- `regex_search` for an expression that begins with `^`. -/
def Re.match? (r : Re) (s : Str) : Option (Str × Groups) := (r.run (s, [])).head?

/-- `regex_search` for an expression without `^`: is there a match anywhere? -/
def Re.search (r : Re) (s : Str) : Bool := (suffixes s).any (fun t => !(r.run (t, [])).isEmpty)

/-- `pieces_match[n]`; the empty text if the group has not been matched. -/
def piece (g : Groups) (n : Nat) : Str := (g.lookup n).getD []

def ch (c : Char) : Re := .cls (· == c.toNat.toUInt8)
/-- `[a-b]` -/
def between (a b : Char) : UInt8 → Bool := fun x => decide (a.toNat.toUInt8 ≤ x ∧ x ≤ b.toNat.toUInt8)
/-- `[…]` -/
def oneOf (l : List Char) : UInt8 → Bool := fun x => l.any (fun c => x == c.toNat.toUInt8)
/-- `[^…]` -/
def noneOf (l : List Char) : UInt8 → Bool := fun x => !oneOf l x
def digit : Re := .cls (between '0' '9')
/-- One after the other. -/
def seqs : List Re → Re
  | [] => .star (fun _ => false)
  | [r] => r
  | r :: l => .seq r (seqs l)

/-- Tools.cpp:428-434 `isNumber`; `std::isdigit` of the C locale. -/
def isNumber (s : Str) : Bool := !s.isEmpty && s.all (fun b => decide (48 ≤ b ∧ b ≤ 57))

/-- `atoi`, for digits. -/
def atoi (s : Str) : Nat := s.foldl (fun n b => 10 * n + (b.toNat - 48)) 0

/-- IOJson.cpp:109, the expression `^([0-9]{4})(-([0-9]))?$`. -/
def versionRe : Re :=
  seqs [.group 1 (seqs [digit, digit, digit, digit]), .opt (.group 2 (seqs [ch '-', .group 3 digit])), .stop]

/-- IOJson.cpp:108-159 `versionCheck`, without the messages; IOJson.h:104 for the first year. -/
def versionCheck (s : Str) : Bool :=
  match versionRe.match? s with
  | none => false
  | some (_, g) =>
    isNumber (piece g 1) && decide (2023 ≤ atoi (piece g 1)) &&
      ((piece g 3).isEmpty || (isNumber (piece g 3) && decide (0 < atoi (piece g 3))))

/-- IOJson.cpp:96-97, the expression
`[+-]?[0-9]{4}(-[01][0-9](-[0-3][0-9](T[0-2][0-9]:[0-5][0-9]:?([0-5][0-9](.[0-9]+)?)?[+-][0-2][0-9]:[0-5][0-9]Z?)?)?)?`.
The groups are not used. -/
def dateRe : Re :=
  seqs [.opt (.cls (oneOf ['+', '-'])), digit, digit, digit, digit,
    .opt (seqs [ch '-', .cls (between '0' '1'), digit,
      .opt (seqs [ch '-', .cls (between '0' '3'), digit,
        .opt (seqs [ch 'T', .cls (between '0' '2'), digit, ch ':', .cls (between '0' '5'), digit, .opt (ch ':'),
          .opt (seqs [.cls (between '0' '5'), digit,
            .opt (seqs [.cls (noneOf ['\n', '\r']), digit, .star (between '0' '9')])]),
          .cls (oneOf ['+', '-']), .cls (between '0' '2'), digit, ch ':', .cls (between '0' '5'), digit,
          .opt (ch 'Z')])])])]

/-- IOJson.cpp:95-106 `dateCheck`, without the message. -/
def dateCheck (s : Str) : Bool := dateRe.search s

/-- IOJson.cpp:84, the expression `^(([^:/?#]+):)?(//([^/?#]*))?([^?#]*)(\?([^#]*))?(#(.*))?`.  The groups are not
used. -/
def uriRe : Re :=
  seqs [.opt (seqs [.cls (noneOf [':', '/', '?', '#']), .star (noneOf [':', '/', '?', '#']), ch ':']),
    .opt (seqs [ch '/', ch '/', .star (noneOf ['/', '?', '#'])]),
    .star (noneOf ['?', '#']),
    .opt (seqs [ch '?', .star (noneOf ['#'])]),
    .opt (seqs [ch '#', .star (noneOf ['\n', '\r'])])]

/-- IOJson.cpp:83-93 `URICheck`, without the message: `pieces_match[0]` is what the expression has
matched. -/
def uriCheck (s : Str) : Bool :=
  match uriRe.match? s with
  | none => false
  | some (rest, _) => decide (rest.length ≠ s.length)

end Haptics.Json
