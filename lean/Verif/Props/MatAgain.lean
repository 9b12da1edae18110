import Verif.Props.MatRead
import Verif.Lemmas.MatAgain
/-
C74: what was read from a file without Python metadata, saved again with it.
-/
namespace HS
open Spec

/-- C74. A value is written MATLAB compatible and without Python metadata, read back (`w`, its MATLAB form as in C66), and what was read is written with Python metadata to an
unused place in any file, the same or another one, with other options.  Reading that gives exactly `w` again: the MATLAB form survives from then on, nothing is converted twice.
(`structs_as_dicts` is the same in both sessions; structured arrays without elements are excluded.) -/
theorem C74_again {o : Options} (ho : ReachableOptions o) (hm : o .matlabCompatible = .bool true) (hi : o .actionForMatlabIncompatible ≠ .str p!"ignore")
    (hp : o .storePythonMetadata = .bool false) {x : Ctx} (hx : x.o = COpts.of o) {h0 : Heap} (ht : Tree h0) (hk : DistinctNames h0) (hv : ValidRefs x.o h0) (ha : CanonAtA x.o h0)
    {F : FileS} (hu : UsedFrom x.o h0 x F) {n : Nat} {F' : FileS} {p : PathArg} {ns : List Str} {v : Val} (hw : WroteNew x n F p ns v F') (y : Ctx)
    (hy : y.o.refsPath = x.o.refsPath) (hg : MatGood x.o y.o.structsAsDicts v) :
    ∃ w N, (∀ (G : FileS) (p' : PathArg) (m : Nat), G.isOpen = true → G.st.heap = F'.st.heap → Addr p' ns → N ≤ m → fileRead y m p' G = .ok w) ∧
      ∀ (z : Ctx), RtOpts z.o → z.o.structAsStruct = true → CplxNames z.o → z.o.structsAsDicts = y.o.structsAsDicts → ¬ HasEmptyStruct w →
        ∀ (k : Nat) (H H' : FileS) (q : PathArg) (ms : List Str), WroteNew z k H q ms w H' →
          ∀ (u : Ctx) (G : FileS) (q' : PathArg) (m : Nat), u.o.refsPath = z.o.refsPath → u.o.structsAsDicts = y.o.structsAsDicts →
            u.o.reverse = z.o.reverse ∨ (z.o.matlab = true ∧ z.o.action ≠ .ignore) → G.isOpen = true → G.st.heap = H'.st.heap → Addr q' ms → k ≤ m → fileRead u m q' G = .ok w := by
  have hR : MatR x.o := hx ▸ matR_of ho hm hi hp
  obtain ⟨w, N, h1, h2⟩ := C66_matlab_form ho hm hi hp hx ht hk hv ha hu hw y hy hg
  refine ⟨w, N, h2, ?_⟩
  intro z hz hs hc hd hE k H H' q ms hW u G q' m hur hud huo hG hh hq hkm
  have hgood : Good z.o w := asMatlab_good hR ⟨hs, hc, fun e _ => hd.trans e⟩ h1 hE
  refine file_rt hz hW hgood u G q' m hur ⟨huo, ?_⟩ hG hh hq hkm
  intro _ e
  rw [← hud, e] at h1
  exact asMatlab_noStruct h1 hE

/-- A list with a number and a str. -/
def exTwo : Val := .seq .list [.int 1, .str p!"ab"]

theorem ex_twoGood (d : Bool) : MatGood exXm.o d exTwo := by
  refine .seq _ _ ?_
  intro w hw
  simp only [List.mem_cons, List.not_mem_nil, or_false] at hw
  rcases hw with rfl | rfl
  · exact .number (.int 1 (by decide) (by decide)) ⟨rfl, fun e he => by rw [List.mem_singleton.mp he]; trivial⟩ (.table (.int 1 (by decide) (by decide))) (by simp)
  · exact str_good rfl ⟨by decide, by decide⟩ (by decide)

/-- What it is read as. -/
def exTwoMat : Val := .npObj .ndarray [1, 2] [.np .ndarray ⟨.i64, [1, 1], [.num 1]⟩, .np .ndarray ⟨.str 2, [1, 1], [.units p!"ab"]⟩]

-- The hypotheses are met: the list is written without Python metadata, and what is read with it.
example : (UsedFrom exXm.o emptyHeap exXm exF ∧ WroteNew exXm 10 exF (.str p!"/y") [p!"y"] exTwo (fileWrite exXm 10 (.str p!"/y") exTwo exF).2) ∧ MatGood exXm.o false exTwo ∧
    fileRead exXm 10 (.str p!"/y") (fileWrite exXm 10 (.str p!"/y") exTwo exF).2 = .ok exTwoMat ∧
    RtOpts exX.o ∧ exX.o.structAsStruct = true ∧ CplxNames exX.o ∧ exX.o.structsAsDicts = false ∧ ¬ HasEmptyStruct exTwoMat ∧
    ∃ H', WroteNew exX 10 exF (.str p!"/x/y") [p!"x", p!"y"] exTwoMat H' := by
  refine ⟨ex_wroteM (by decide +kernel) (by decide +kernel), ex_twoGood _, ?_, ex_rtOpts, rfl, ex_cplx, rfl, ?_, _, ex_wrote exTwoMat (by decide +kernel) (by decide +kernel)⟩
  · exact eq_of_isVal (by decide +kernel)
  · intro h
    cases h with
    | npObj _ _ _ w hw h =>
      simp only [List.mem_cons, List.not_mem_nil, or_false] at hw
      rcases hw with rfl | rfl <;> cases h

-- The dict with a structured array in it, read without Python metadata, written with it and read again.
example : (match fileRead exXm 10 (.str p!"/y") exMatF with
    | .ok w => (match fileRead exX 10 (.str p!"/z") (fileWrite exX 10 (.str p!"/z") w exF).2 with
      | .ok w' => w'.beq w
      | _ => false)
    | _ => false) = true := by decide +kernel

end HS
