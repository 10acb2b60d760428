import Verif.Model.Res
/-! String helpers: /repo/src/shambase/include/shambase/string.hpp. A `std::string` is a list of characters. Loops carry fuel; `none` means
that the loop is still running when the fuel is used up. -/
namespace Shamrock

/-- `std::string::find(what, pos)`: the first position `≥ pos` at which `what` occurs (`none`: `npos`). `k` counts the positions left. -/
def strFindFrom (s what : List Char) : Nat → Nat → Option Nat
  | _, 0 => none
  | pos, k + 1 => if what.isPrefixOf (s.drop pos) then some pos else strFindFrom s what (pos + 1) k

/-- `s.find(what, pos)`: positions `pos ..= s.size()` are tried. -/
def strFind (s what : List Char) (pos : Nat) : Option Nat := strFindFrom s what pos (s.length + 1 - pos)

/-- `replace_all`, string.hpp:106-112. -/
def replaceAllLoop (what w : List Char) : Nat → List Char → Nat → Option (List Char)
  | 0, _, _ => none
  | fuel + 1, s, pos => match strFind s what pos with
    | none => some s
    | some p => replaceAllLoop what w fuel (s.take p ++ (w ++ s.drop (p + what.length))) (p + w.length)

def replaceAll (fuel : Nat) (s what w : List Char) : Option (List Char) := replaceAllLoop what w fuel s 0

/-- `increase_indent`, string.hpp:120-124. -/
def increaseIndent (fuel : Nat) (s delim : List Char) : Option (List Char) :=
  (replaceAll fuel s ['\n'] delim).map ([' ', ' ', ' ', ' '] ++ ·)

/-- `trunc_str`, string.hpp:138-148. -/
def truncStr (s : List Char) (maxLen : Nat) : Res (List Char) :=
  if maxLen < 5 then .throws
  else if s.length > maxLen then .ok (s.take (maxLen - 5) ++ [' ', '.', '.', '.'])
  else .ok s

/-- `trunc_str_start`, string.hpp:162-171. -/
def truncStrStart (s : List Char) (maxLen : Nat) : Res (List Char) :=
  if maxLen < 5 then .throws
  else if s.length > maxLen then .ok (['.', '.', '.', ' '] ++ (s.drop (s.length - (maxLen - 4))).take s.length)
  else .ok s

/-- `contain_substr`, string.hpp:181-183. -/
def containSubstr (s what : List Char) : Bool := (strFind s what 0).isSome

/-- `shorten_string`, string.hpp:196-204. -/
def shortenString (s : List Char) (len : Nat) : Res (List Char) :=
  if len > s.length then .throws else .ok (s.take (s.length - len))

/-- `split_str`, string.hpp:213-227. -/
def splitStrLoop (delim : List Char) : Nat → List Char → List (List Char) → Option (List (List Char))
  | 0, _, _ => none
  | fuel + 1, s, ret => match strFind s delim 0 with
    | none => some (if s.length > 0 then ret ++ [s] else ret)
    | some pos => splitStrLoop delim fuel (s.drop (pos + delim.length)) (if (s.take pos).length > 0 then ret ++ [s.take pos] else ret)

def splitStr (fuel : Nat) (s delim : List Char) : Option (List (List Char)) := splitStrLoop delim fuel s []

end Shamrock
