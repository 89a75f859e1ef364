import Verif.Model.Json
/- The same file, written by another JSON writer (C99). -/
namespace Xmm
namespace Json
variable {K : Type}

/-- the JSON value `v` is a way to write the whole number `z`: as an integer, as a real, or, for 1 and 0, as `true` and `false` -/
inductive Writes [IntCast K] : Json K → Int → Prop
  | integer (z : Int) : Writes (.int z) z
  | real (z : Int) : Writes (.real (z : K)) z
  | yes : Writes (.bool true) 1
  | no : Writes (.bool false) 0

/-- the members that are read as texts -/
def textKeys : List String := ["label", "column_names"]

mutual
/-- `v` and `v'` are the same value except for the way whole numbers and flags are written in it; the texts are the same -/
inductive Rewritten [IntCast K] : Json K → Json K → Prop
  | null : Rewritten .null .null
  | str (s : String) : Rewritten (.str s) (.str s)
  | real (x : K) : Rewritten (.real x) (.real x)
  | whole {v v' : Json K} {z : Int} : Writes v z → Writes v' z → Rewritten v v'
  | arr {l l' : List (Json K)} : RewrittenList l l' → Rewritten (.arr l) (.arr l')
  | obj {m m' : List (String × Json K)} : RewrittenMembers m m' → Rewritten (.obj m) (.obj m')
/-- element by element -/
inductive RewrittenList [IntCast K] : List (Json K) → List (Json K) → Prop
  | nil : RewrittenList [] []
  | cons {v v' : Json K} {l l' : List (Json K)} : Rewritten v v' → RewrittenList l l' → RewrittenList (v :: l) (v' :: l')
/-- member by member -/
inductive RewrittenMembers [IntCast K] : List (String × Json K) → List (String × Json K) → Prop
  | nil : RewrittenMembers [] []
  | text {k : String} (v : Json K) {m m' : List (String × Json K)} : k ∈ textKeys → RewrittenMembers m m' → RewrittenMembers ((k, v) :: m) ((k, v) :: m')
  | other {k : String} {v v' : Json K} {m m' : List (String × Json K)} : k ∉ textKeys → Rewritten v v' → RewrittenMembers m m' →
      RewrittenMembers ((k, v) :: m) ((k, v') :: m')
end
end Json

/-- `Int(value)` on a `double` that is a whole number in the range of `int`; out of range there is no result, json_value.cpp:657-660 -/
def TruncatesWhole (K : Type) [IntCast K] [JsonReal K] : Prop :=
  ∀ z : Int, JsonReal.toInt (z : K) = if -2147483648 ≤ z ∧ z ≤ 2147483647 then some z else none

end Xmm
