import Verif.Text.Model
/-!
# Model of `/repo/src/common/string-util.h` 40-144: the replacement of `std::string_view`, and of `StringPrintf`

The replacement is used by compilers before C++17. A view is a place in some memory and a length. What is read outside of
the memory is undefined (`none`), and so is a failing `assert`. `size_t` has 64 bits here.

Simplifications: iterators, `operator[]`, `front` and `data` are not modelled, they are plain pointers; the text that
`vsnprintf` makes of its arguments is a parameter.
-/
namespace BeagleG.Text

/-- `size_t` arithmetic. common/string-util.h 63-138. -/
def sizeT (n : Int) : Nat := (n % 2 ^ 64).toNat

/-- `string_view`, common/string-util.h 49-62 and 136-137: `data_` points to offset `off` of the memory. -/
structure View where
  mem : List Byte
  off : Nat
  len : Nat

/-- The view lies in its memory. common/string-util.h 136-137. -/
def View.Ok (v : View) : Prop := v.off + v.len ≤ v.mem.length

/-- The characters of a view. common/string-util.h 136-137. -/
def View.text (v : View) : List Byte := (v.mem.drop v.off).take v.len

/-- Lines 61-62: the view of a C string, which is followed by NUL. -/
def View.ofC (s : List Byte) : View := ⟨s ++ [0], 0, s.length⟩

/-- `substr` with two arguments, lines 63-66. -/
def View.substr2 (v : View) (pos len : Nat) : Option View :=
  if sizeT (pos + len) ≤ v.len then some ⟨v.mem, v.off + pos, len⟩ else none

/-- `substr` with one argument, line 67. -/
def View.substr1 (v : View) (pos : Nat) : Option View := v.substr2 pos (sizeT (v.len - pos))

/-- `operator==`, lines 69-73; `same`: both are in the same memory. -/
def View.eq (v w : View) (same : Bool) : Option Bool :=
  if v.len ≠ w.len then some false
  else if same ∧ v.off = w.off then some true
  else strncmpEq (v.mem.drop v.off) (w.mem.drop w.off) v.len

/-- `strchr`: the memory is read up to the character or NUL. common/string-util.h 86. -/
def strchr (c : Byte) : List Byte → Option (Option Nat)
  | [] => none
  | x :: l => if x = c then some (some 0) else if x = 0 then some none else (strchr c l).map (Option.map (· + 1))

/-- `find_first_of`, lines 85-88. The outer `none` is undefined behaviour, the inner one `npos`. -/
def View.findFirstOf (v : View) (c : Byte) : Option (Option Nat) := strchr c (v.mem.drop v.off)

/-- `traits_type::find` on the first `n` characters. common/string-util.h 104, 115. -/
def charFind (l : List Byte) (n : Nat) (c : Byte) : Option Nat := (l.take n).findIdx? (· == c)

/-- The loop of `find`, lines 113-126; the last argument bounds the iterations. -/
def findLoop (t s : List Byte) (i : Nat) : Nat → Option Nat
  | 0 => none
  | n + 1 =>
    if i ≤ t.length - s.length then
      match charFind (t.drop i) (t.length - s.length - i + 1) (s.headD 0) with
      | none => none
      | some k =>
        if (t.drop (i + k + 1)).take (s.length - 1) = s.drop 1 then some (i + k) else findLoop t s (i + k + 1) n
    else none

/-- `find`, lines 91-127, on the characters of the two views. -/
def findText (t s : List Byte) (pos : Nat) : Option Nat :=
  if pos > t.length then none
  else if s.length = 0 then some pos
  else if s.length > t.length - pos then none
  else if s.length = 1 then (charFind (t.drop pos) (t.length - pos) (s.headD 0)).map (pos + ·)
  else findLoop t s pos (t.length + 1)

/-- `find`. common/string-util.h 91-127. -/
def View.find (v s : View) (pos : Nat) : Option Nat := findText v.text s.text pos

/-- `remove_prefix`, lines 129-133. -/
def View.removePrefix (v : View) (n : Nat) : View :=
  let n := if n < v.len then n else v.len
  ⟨v.mem, v.off + n, v.len - n⟩

/-- `SplitString`, string-util.cc 64-77, with `contains`, lines 60-62, as given. -/
def splitWith (contains : Byte → Option Bool) (s : List Byte) (start i : Nat) : Nat → Option (List (List Byte))
  | 0 => some [(s.drop start).take (i - start)]
  | n + 1 =>
    match s[i]? with
    | none => some [(s.drop start).take (i - start)]
    | some c => (contains c).bind fun yes =>
      if yes then (splitWith contains s (i + 1) (i + 1) n).map ((s.drop start).take (i - start) :: ·)
      else splitWith contains s start (i + 1) n

/-- `SplitString` with the replacement. common/string-util.cc 64-77 with common/string-util.h 49-138. -/
def View.split (v separators : View) : Option (List (List Byte)) :=
  splitWith (fun c => (separators.findFirstOf c).map Option.isSome) v.text 0 0 v.text.length

/-- `std::string::resize`. common/string-util.cc 195, 198. -/
def resizeText (s : List Byte) (n : Nat) : List Byte := s.take n ++ List.replicate (n - s.length) 0

/-- `vsnprintf` into 1024 bytes (zero before), string-util.cc 192-199: the text is cut, and NUL comes behind it. -/
def vsnprintf1024 (t : List Byte) : List Byte := resizeText (t.take 1023 ++ [0]) 1024

/-- `StringPrintf`, string-util.cc 192-208. `out` is the text that belongs to format and arguments, `none` if `vsnprintf`
fails; it then returns -1, and `resize` with the greatest `size_t` throws. -/
def stringPrintf (out : Option (List Byte)) : Option (List Byte) :=
  out.map fun t => resizeText (vsnprintf1024 t) t.length

end BeagleG.Text
