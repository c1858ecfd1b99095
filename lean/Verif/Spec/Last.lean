/-!
Lists of options, the last of which wins.
-/

namespace Verif

/-- The last value that an option sets, if any does. -/
def lastSet {α β : Type} (f : α → Option β) (l : List α) : Option β := (l.filterMap f).getLast?

end Verif
