import Verif.Spec.Progress
import Verif.Spec.Mapping
/-
Writing several variables, and copying one file into another.
-/
namespace HS.Spec

/-- `F` is a file open for writing in any state it can be in; its references Group, which is directly in the root Group, is called `r`, and this `File` has made it or
there is none yet. -/
structure Receives (x : Ctx) (F : FileS) (r : Str) : Prop where
  refs : x.o.refsPath = slash :: r
  refsName : IsName r
  refsText : Scalars r ∧ (x.o.matlab = true → Ascii r)
  reach : Reach x F
  isOpen : F.isOpen = true
  rw : F.ro = false
  over : CanOverwrite x.o
  classes : TextClasses F.st.heap
  own : OwnRefs x F

/-- `k` is possible as the name of a variable with the value `v` in a file whose references Group is called `r`. -/
structure Variable (o : COpts) (r k : Str) (v : Val) : Prop where
  name : IsName k
  notUp : k ≠ [dot, dot]
  notRefs : k ≠ r
  text : Scalars k
  ascii : o.matlab = true → Grouped v → Ascii k

end HS.Spec
