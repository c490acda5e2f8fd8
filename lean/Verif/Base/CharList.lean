/-!
# Texts as lists of characters

`c!"abc"` is `['a', 'b', 'c']`: the same list as `"abc".toList`, written out so that the kernel need not decode it.
-/

namespace Rocketry

open Lean in
macro:max "c!" s:str : term => do
  let cs : Array (TSyntax `term) := (s.getString.toList.map (fun c => (⟨Syntax.mkCharLit c⟩ : TSyntax `term))).toArray
  `([$cs,*])

example : c!"ab c'" = "ab c'".toList := by decide

end Rocketry
