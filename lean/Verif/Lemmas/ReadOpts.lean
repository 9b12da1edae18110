import Verif.Model.File
/-
Which options reading depends on.
-/
namespace HS

theorem npFinish_rev {o o' : COpts} (hr : o'.reverse = o.reverse) (ts u : Str) (shape : List Nat) (cont : Option Str) (empty : Bool) (mc : Option Str) (d : NData) :
    npFinish o' ts u shape cont empty mc d = npFinish o ts u shape cont empty mc d := by
  unfold npFinish
  rw [hr]

theorem readNp_opts {o o' : COpts} (hr : o'.reverse = o.reverse) (hs : o'.structsAsDicts = o.structsAsDicts) (mu : Nat → Bool) (rd : Rd) (excl : Option Nat) (ob : Obj) :
    readNp mu rd o' excl ob = readNp mu rd o excl ob := by
  have hf : ∀ ts u cont pf mc d, finish o' ob ts u cont pf mc d = finish o ob ts u cont pf mc d := by
    intro ts u cont pf mc d
    unfold finish pyFinish
    simp only [npFinish_rev hr, hr]
  unfold readNp
  rw [hs]
  simp only [hf]

theorem readDictItems_opts {o o' : COpts} (hk : o'.keysName = o.keysName) (hv : o'.valuesName = o.valuesName) (rd : Rd) (excl : Option Nat) (ob : Obj) :
    readDictItems rd o' excl ob = readDictItems rd o excl ob := by
  unfold readDictItems
  rw [hk, hv]

theorem readData_opts {o o' : COpts} (hr : o'.reverse = o.reverse) (hs : o'.structsAsDicts = o.structsAsDicts) (hk : o'.keysName = o.keysName)
    (hv : o'.valuesName = o.valuesName) (V : View) (excl : Option Nat) (n : Nat) : readData o' V excl n = readData o V excl n := by
  induction n with
  | zero => rfl
  | succ n ih =>
    funext p
    rw [readData, readData]
    dsimp only
    rw [ih]
    have ht : ∀ mu rd ob ts, readTyped mu rd o' excl ob ts = readTyped mu rd o excl ob ts := by
      intro mu rd ob ts
      unfold readTyped
      rw [readNp_opts hr hs, readDictItems_opts hk hv]
    simp only [readNp_opts hr hs, ht]

theorem readMany_opts {x y : Ctx} {n : Nat} {h : Heap} (hh : ∀ gt, readOne y n h gt = readOne x n h gt) (l : List (Str × Str)) : readMany y n h l = readMany x n h l := by
  induction l with
  | nil => rfl
  | cons gt l ih => rw [readMany, readMany, hh, ih]

end HS
