/-
What a user expects of a circular buffer, on lists.
-/
namespace Xmm.CBufSpec

/-- The last `k` elements of a list (all of them if there are fewer). -/
def lastN {β : Type} (k : Nat) (l : List β) : List β := l.drop (l.length - k)

end Xmm.CBufSpec
