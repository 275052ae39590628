import Verif.Model.Prelude

/-!
# Specification: debug builds and release builds
-/

namespace Vers.Spec

/-- The debug build. -/
abbrev dbg : Profile := ⟨true⟩

/-- The release build. -/
abbrev rel : Profile := ⟨false⟩

/-- The outcome `a` of a call in a debug build and the outcome `b` of the same call in a release build
agree: they are the same value or the same panic, unless the debug build panics because of an arithmetic
overflow or a failed assertion. -/
def Agree {α : Type} (a b : R α) : Prop := a = b ∨ a = .error .overflow ∨ a = .error .assertion

/-- The two builds agree on a call (an expression of the model, which is generic in the build profile). -/
def BuildsAgree {α : Type} (call : [Profile] → R α) : Prop := Agree (@call dbg) (@call rel)

end Vers.Spec
