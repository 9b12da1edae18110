import Verif.Spec.Open
import Verif.Model.Mat
/-
What a file on disk holds, as bytes and as HDF5 content.
-/
namespace HS.Spec

/-- The bytes on disk (`none`: no file) hold the file `c`: nothing, something HDF5 does not open, or a userblock followed by what HDF5 reads as the content;
`content` says what HDF5 reads from the bytes after the userblock. -/
inductive OnDisk (e : OpenEnv) (content : Bytes → Heap) : Option Bytes → Option DFile → Prop
  | absent : OnDisk e content none none
  | junk (b : Bytes) : (∀ n, HasUserblock b n → e.valid (b.drop n) = false) → OnDisk e content (some b) (some .junk)
  | h5 (b : Bytes) (n : Nat) : HasUserblock b n → e.valid (b.drop n) = true → OnDisk e content (some b) (some (.h5 n (content (b.drop n))))

/-- HDF5 creates valid files with the userblock asked for and nothing in them. -/
structure FreshEmpty (e : OpenEnv) (content : Bytes → Heap) : Prop where
  fresh : FreshOk e
  empty : content (e.fresh.drop 512) = emptyHeap

/-- What a file holds after it was opened: what it held (`old`, with a userblock of `ub` bytes), unless it did not exist or the user asked for it to be thrown
away; then nothing, after a userblock of 512 bytes. -/
inductive Opened (a : OpenArgs) : Option DFile → Nat → Heap → Prop
  | kept (ub : Nat) (h : Heap) : ¬ (a.writable = true ∧ (a.truncExisting = true ∨ a.matlab = true ∧ a.truncInvalid = true ∧ ub < 128)) →
      Opened a (some (.h5 ub h)) ub h
  | made : a.writable = true → Opened a none 512 emptyHeap
  | truncated (c : DFile) : a.writable = true → a.truncExisting = true → Opened a (some c) 512 emptyHeap
  | invalid (ub : Nat) (h : Heap) : a.writable = true → a.matlab = true → a.truncInvalid = true → ub < 128 → Opened a (some (.h5 ub h)) 512 emptyHeap

end HS.Spec
