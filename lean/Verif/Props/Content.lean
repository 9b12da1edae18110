import Verif.Props.Open
import Verif.Spec.Content
/-
C42, on the content of files: what HDF5 reads from the bytes after opening, and that the two models of opening, on bytes and on content, agree.
-/
namespace HS
open Spec

theorem openDisk_iff (a : OpenArgs) (c : Option DFile) (ub : Nat) (h : Heap) :
    openDisk c a.writable a.truncExisting a.truncInvalid a.matlab = .ok (ub, h) ↔ Opened a c ub h := by
  obtain ⟨w, te, ti, m⟩ := a
  unfold openDisk
  dsimp only
  constructor
  · intro ho
    cases w with
    | false =>
      simp only [Bool.not_false, if_true] at ho
      split at ho
      · cases ho; exact .kept _ _ (by rintro ⟨h, _⟩; cases h)
      · cases ho
    | true =>
      simp only [Bool.not_true, Bool.false_eq_true, if_false] at ho
      cases c with
      | none => cases ho; exact .made rfl
      | some c =>
        dsimp only at ho
        cases te with
        | true => simp only [if_true] at ho; cases ho; exact .truncated c rfl rfl
        | false =>
          simp only [Bool.false_eq_true, if_false] at ho
          cases c with
          | junk => cases ho
          | h5 n h' =>
            dsimp only at ho
            split at ho
            · rename_i hc; cases ho; exact .invalid n h' rfl hc.1 hc.2.1 hc.2.2
            · rename_i hc; cases ho
              refine .kept _ _ ?_
              rintro ⟨_, h | h⟩
              · cases h
              · exact hc h
  · intro ho
    cases ho with
    | kept _ _ hn =>
      cases w with
      | false => rfl
      | true =>
        simp only [Bool.not_true, Bool.false_eq_true, if_false]
        cases te with
        | true => exact absurd ⟨rfl, Or.inl rfl⟩ hn
        | false =>
          simp only [Bool.false_eq_true, if_false]
          rw [if_neg]
          exact fun hc => hn ⟨rfl, Or.inr hc⟩
    | made hw => subst hw; rfl
    | truncated c hw ht => subst hw; subst ht; rfl
    | invalid n h' hw hm hi hn =>
      simp only at hw hm hi
      subst hw; subst hm; subst hi
      simp only [Bool.not_true, Bool.false_eq_true, if_false]
      split
      · rfl
      · rw [if_pos ⟨trivial, trivial, hn⟩]

theorem finalState_none {d : Option Bytes} {r : Res Unit} : finalState d ([], r) = d := rfl

/-- What opening does to the bytes of an HDF5 file that is not thrown away. -/
theorem openRest_final {e : OpenEnv} (he : EnvOk e) (content : Bytes → Heap) (a : OpenArgs) {b : Bytes} {n : Nat} (hb : HasUserblock b n)
    (hv : e.valid (b.drop n) = true) (d : Option Bytes) (hd : d = some b) :
    (openRest e a b n).2 = .ok () ∧ OnDisk e content (finalState d (openRest e a b n)) (some (.h5 n (content (b.drop n)))) := by
  subst hd
  unfold openRest
  split
  · rename_i hm
    obtain ⟨hdr, h1, h2, h3, h4, h5, h6⟩ := putHeader_spec he hm.2 hb hv
    refine ⟨h4, ?_⟩
    obtain ⟨_, h7, h8⟩ := h6 _ (List.mem_of_getLast? h5)
    have hdrop : (overwrite b hdr).drop n = b.drop n := by
      have x : (overwrite b hdr).drop n = ((overwrite b hdr).drop 128).drop (n - 128) := drop_split hm.2 _
      have y : b.drop n = (b.drop 128).drop (n - 128) := drop_split hm.2 _
      rw [x, y, h7]
    have hf : finalState (some b) (putHeader e b) = some (overwrite b hdr) := by
      unfold finalState
      apply getLastD_append_some
      unfold crashStates
      rw [List.getLast?_cons, List.getLast?_map, h5]; rfl
    rw [hf, ← hdrop]
    exact .h5 _ _ ((h8 n).mpr hb) (by rw [hdrop]; exact hv)
  · exact ⟨rfl, .h5 _ _ hb hv⟩

theorem openNew_final {e : OpenEnv} (he : EnvOk e) {content : Bytes → Heap} (hf : FreshEmpty e content) (a : OpenArgs) (d : Option Bytes) :
    (openNew e a).2 = .ok () ∧ OnDisk e content (finalState d (openNew e a)) (some (.h5 512 emptyHeap)) := by
  obtain ⟨h1, h2⟩ := openRest_final he content a hf.fresh.ub hf.fresh.valid (some e.fresh) rfl
  have hn : openNew e a = ([] :: e.fresh :: (openRest e a e.fresh 512).1, (openRest e a e.fresh 512).2) := by
    unfold openNew
    rw [h5Open_ok.mpr ⟨hf.fresh.ub, hf.fresh.valid⟩]
  rw [hn]
  refine ⟨h1, ?_⟩
  have : finalState d (([] : Bytes) :: e.fresh :: (openRest e a e.fresh 512).1, (openRest e a e.fresh 512).2) = finalState (some e.fresh) (openRest e a e.fresh 512) := by
    unfold finalState crashStates
    rw [List.getLastD_eq_getLast?, List.getLastD_eq_getLast?, List.map_cons, List.map_cons, List.getLast?_cons_cons, List.getLast?_cons_cons, List.getLast?_cons]
    rfl
  rw [this, ← hf.empty]
  exact h2

/-- C42. Opening a File, for every file on disk, every content and all arguments: if it succeeds then the file holds what `Opened` says: exactly what it held,
unless there was none or the user asked for it to be thrown away; otherwise it raises `OSError`, and the bytes are the same. -/
theorem C42_content {e : OpenEnv} (he : EnvOk e) {content : Bytes → Heap} (hf : FreshEmpty e content) (a : OpenArgs) {d : Option Bytes} {c : Option DFile}
    (hd : OnDisk e content d c) :
    ((openFile e a d).2 = .ok () ∧ ∃ ub h, Opened a c ub h ∧ OnDisk e content (finalState d (openFile e a d)) (some (.h5 ub h))) ∨
    ((openFile e a d).2 = .error .osError ∧ (∀ ub h, ¬ Opened a c ub h) ∧ finalState d (openFile e a d) = d) := by
  cases hw : a.writable with
  | false =>
    cases hd with
    | absent =>
      refine Or.inr ⟨by unfold openFile; rw [hw]; rfl, ?_, by unfold openFile; rw [hw]; rfl⟩
      intro ub h ho
      cases ho with
      | made h => rw [hw] at h; cases h
    | junk b hb =>
      obtain ⟨h1, h2⟩ := C42_not_hdf5 e a b (by rw [hw]; nofun) hb
      refine Or.inr ⟨h2, ?_, by unfold finalState; rw [h1]; rfl⟩
      intro ub h ho
      cases ho with
      | truncated _ h => rw [hw] at h; cases h
    | h5 b n hb hv =>
      have : openFile e a (some b) = ([], .ok ()) := by
        unfold openFile
        rw [hw]
        simp only [Bool.not_false, if_true]
        rw [h5Open_ok.mpr ⟨hb, hv⟩]; rfl
      rw [this]
      exact Or.inl ⟨rfl, n, _, .kept _ _ (by rw [hw]; rintro ⟨h, _⟩; cases h), .h5 b n hb hv⟩
  | true =>
    cases hd with
    | absent =>
      have : openFile e a none = openNew e a := by unfold openFile; rw [hw]; rfl
      rw [this]
      obtain ⟨h1, h2⟩ := openNew_final he hf a none
      exact Or.inl ⟨h1, 512, emptyHeap, .made hw, h2⟩
    | junk b hb =>
      cases ht : a.truncExisting with
      | true =>
        have : openFile e a (some b) = openNew e a := by unfold openFile; rw [hw, ht]; rfl
        rw [this]
        obtain ⟨h1, h2⟩ := openNew_final he hf a (some b)
        exact Or.inl ⟨h1, 512, emptyHeap, .truncated _ hw ht, h2⟩
      | false =>
        obtain ⟨h1, h2⟩ := C42_not_hdf5 e a b (fun _ => ht) hb
        refine Or.inr ⟨h2, ?_, by unfold finalState; rw [h1]; rfl⟩
        intro ub h ho
        cases ho with
        | truncated _ _ h => rw [ht] at h; cases h
    | h5 b n hb hv =>
      cases ht : a.truncExisting with
      | true =>
        have : openFile e a (some b) = openNew e a := by unfold openFile; rw [hw, ht]; rfl
        rw [this]
        obtain ⟨h1, h2⟩ := openNew_final he hf a (some b)
        exact Or.inl ⟨h1, 512, emptyHeap, .truncated _ hw ht, h2⟩
      | false =>
        by_cases hi : a.matlab = true ∧ a.truncInvalid = true ∧ n < 128
        · have : openFile e a (some b) = openNew e a := by
            unfold openFile
            rw [hw, ht]
            simp only [Bool.not_true, Bool.false_eq_true, if_false]
            rw [h5Open_ok.mpr ⟨hb, hv⟩]
            dsimp only
            rw [if_pos hi]
          rw [this]
          obtain ⟨h1, h2⟩ := openNew_final he hf a (some b)
          exact Or.inl ⟨h1, 512, emptyHeap, .invalid _ _ hw hi.1 hi.2.1 hi.2.2, h2⟩
        · have : openFile e a (some b) = openRest e a b n := by
            unfold openFile
            rw [hw, ht]
            simp only [Bool.not_true, Bool.false_eq_true, if_false]
            rw [h5Open_ok.mpr ⟨hb, hv⟩]
            dsimp only
            rw [if_neg hi]
          rw [this]
          obtain ⟨h1, h2⟩ := openRest_final he content a hb hv (some b) rfl
          refine Or.inl ⟨h1, n, _, .kept _ _ ?_, h2⟩
          rintro ⟨_, h | h⟩
          · rw [ht] at h; cases h
          · exact hi h

/-- C42, and the file that `writes`, `savemat`, `reads` and `loadmat` work on (`openDisk`): it is the one that the bytes on the disk hold after opening them. -/
theorem C42_functions {e : OpenEnv} (he : EnvOk e) {content : Bytes → Heap} (hf : FreshEmpty e content) (a : OpenArgs) {d : Option Bytes} {c : Option DFile}
    (hd : OnDisk e content d c) :
    match openDisk c a.writable a.truncExisting a.truncInvalid a.matlab with
    | .ok (ub, h) => (openFile e a d).2 = .ok () ∧ OnDisk e content (finalState d (openFile e a d)) (some (.h5 ub h))
    | .error err => (openFile e a d).2 = .error err ∧ finalState d (openFile e a d) = d := by
  cases ho : openDisk c a.writable a.truncExisting a.truncInvalid a.matlab with
  | ok r =>
    obtain ⟨ub, h⟩ := r
    have := (openDisk_iff a c ub h).mp ho
    rcases C42_content he hf a hd with ⟨h1, ub', h', h2, h3⟩ | ⟨_, h2, _⟩
    · rw [(openDisk_iff a c ub' h').mpr h2] at ho
      cases ho
      exact ⟨h1, h3⟩
    · exact absurd this (h2 ub h)
  | error err =>
    have hos : err = .osError := by
      unfold openDisk at ho
      split at ho
      · split at ho
        · cases ho
        · cases ho; rfl
      · split at ho
        · cases ho
        · split at ho
          · cases ho
          · split at ho
            · cases ho; rfl
            · split at ho <;> cases ho
    subst hos
    rcases C42_content he hf a hd with ⟨h1, ub', h', h2, h3⟩ | ⟨h1, _, h3⟩
    · rw [(openDisk_iff a c ub' h').mpr h2] at ho; cases ho
    · exact ⟨h1, h3⟩

-- A file with a userblock of 512 bytes and something in it (here: three objects), read only, to append and to truncate; something else; and a new file.
example : EnvOk exEnv ∧
    FreshEmpty exEnv (fun l => if l.length ≤ 8 then emptyHeap else List.replicate 3 ⟨[], .group []⟩) ∧
    OnDisk exEnv (fun l => if l.length ≤ 8 then emptyHeap else List.replicate 3 ⟨[], .group []⟩) (some (List.replicate 512 0 ++ h5sig ++ [1]))
      (some (.h5 512 (List.replicate 3 ⟨[], .group []⟩))) ∧
    Opened ⟨false, true, true, true⟩ (some (.h5 512 (List.replicate 3 ⟨[], .group []⟩))) 512 (List.replicate 3 ⟨[], .group []⟩) ∧
    Opened ⟨true, false, true, true⟩ (some (.h5 512 (List.replicate 3 ⟨[], .group []⟩))) 512 (List.replicate 3 ⟨[], .group []⟩) ∧
    Opened ⟨true, true, true, true⟩ (some (.h5 512 (List.replicate 3 ⟨[], .group []⟩))) 512 emptyHeap ∧
    (∀ b, (∀ n, ¬ HasUserblock b n) → OnDisk exEnv (fun _ => emptyHeap) (some b) (some .junk)) := by
  refine ⟨ex_envOk, ⟨⟨by have := ex_userblock []; rw [List.append_nil] at this; exact this, rfl⟩, by decide +kernel⟩, ?_, ?_, ?_, ?_, ?_⟩
  · have := OnDisk.h5 (e := exEnv) (content := fun l => if l.length ≤ 8 then emptyHeap else List.replicate 3 ⟨[], .group []⟩) _ _ (ex_userblock [1]) rfl
    have hd : (List.replicate 512 0 ++ h5sig ++ [1]).drop 512 = h5sig ++ [1] := by
      rw [List.append_assoc]; exact List.drop_left' (List.length_replicate ..)
    rw [hd] at this
    exact this
  · exact .kept _ _ (by rintro ⟨h, _⟩; cases h)
  · refine .kept _ _ ?_
    rintro ⟨_, h | ⟨_, _, h⟩⟩
    · cases h
    · omega
  · exact .truncated _ rfl rfl
  · exact fun b hb => .junk b (fun n hn => absurd hn (hb n))

end HS
