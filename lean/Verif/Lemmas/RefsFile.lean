import Verif.Lemmas.RefsTree
import Verif.Lemmas.Away
/-
References stay valid: the methods of `File`.
-/
namespace HS
open Spec

/-- What is in the file, or made from now on. -/
def LNow (s : St) (p : Nat) : Prop := LReach s.heap 0 p ∨ s.heap.length ≤ p

theorem RI.widen {x : Ctx} {s : St} (h : RI x (LReach s.heap 0) s) : RI x (LNow s) s := by
  refine ⟨h.inv, h.tree, ?_, h.canA, h.can⟩
  intro p ob h1 h2
  rcases h2 with h2 | h2
  · exact h.vals p ob h1 h2
  · rw [List.getElem?_eq_none h2] at h1; cases h1

theorem RI.settle {x : Ctx} {A D} {s s' : St} (f : Fr x A D s s') (h : RI x (LNow s) s') : RI x (LReach s'.heap 0) s' := by
  refine ⟨h.inv, h.tree, ?_, h.canA, h.can⟩
  intro p ob h1 h2
  refine h.vals p ob h1 ?_
  by_cases hp : p < s.heap.length
  · exact Or.inl (f.reach_old h2 hp).2
  · exact Or.inr (by omega)

theorem requireGroup_groups {comps : List Str} {s s' : St} {res : Res Nat} (h : requireGroup comps s = (res, s')) : OnlyGroups s s' := by
  have refl : OnlyGroups s s := fun _ _ h => Or.inr h
  unfold requireGroup at h
  by_cases hn : comps.all nameOk = true
  · rw [if_pos hn] at h
    cases hr : resolve s.heap 0 comps with
    | some g =>
      rw [hr] at h
      dsimp only at h
      by_cases hg : isGroup s.heap g = true
      · rw [if_pos hg] at h; cases h; exact refl
      · rw [if_neg hg] at h; cases h; exact refl
    | none =>
      rw [hr] at h
      exact fun p ob => createPath_groups comps 0 s s' res h p ob
  · rw [if_neg hn] at h; cases h; exact refl

theorem requireGroup_ri {x : Ctx} {L : Nat → Prop} {s s' : St} {res : Res Nat} (hR : RI x L s) {comps : List Str} {t : Str}
    (ho : OffRefs x.o (comps ++ [t])) (h : requireGroup comps s = (res, s')) : RI x L s' := by
  have r := requireGroup_user hR.inv hR.tree ho h
  have hg := requireGroup_groups h
  have hpl := plainComps x
  have hk : KeepRefs x s s' := fun rg nm q h1 h2 =>
    ⟨resolve_lpath hpl (lpath_mono r.mono (lpath_resolve hpl h1)), r.mono _ _ _ h2⟩
  refine hR.change r.step.inv (tree_step hR.tree r.step noD_zero) r.bk.1 r.bk.2.2.2.2 hk ?_ ?_
  · intro rg q h1 h2
    have hlp : LPath s'.heap (refsComps x.o ++ [p!"a"]) q := .snoc (lpath_resolve hpl h1) h2
    rcases r.only _ _ hlp with hold | hpre
    · obtain ⟨rg0, h3, h4⟩ := lpath_snoc hold
      obtain ⟨ob, h5, h6⟩ := hR.canA rg0 q (resolve_lpath hpl h3) h4
      obtain ⟨ob', h7, h8, h9⟩ := r.step.fr.obj q ob h5 (fun h => h)
      refine ⟨ob, ?_, h6⟩
      rcases hg q ob' h7 with ⟨l, hl⟩ | hs
      · exfalso
        obtain ⟨at', bo⟩ := ob
        cases bo with
        | group l => exact canon_not_group h6 l rfl
        | dset a f => rw [hl] at h9; exact h9.elim
      · rw [hs] at h5; cases h5; exact h7
    · exfalso
      have hne : refsComps x.o ≠ [] := ho.refs
      apply ho.head
      have h3 : refsComps x.o <+: comps ++ [t] := (List.prefix_append _ _).trans (hpre.trans (List.prefix_append _ _))
      exact (head_prefix h3 hne).symm
  · intro p ob h1 h2 a f q h3 h4 h5
    rcases hg p ob h1 with ⟨l, hl⟩ | hs
    · rw [hl] at h3; cases h3
    · exact hR.vals p ob hs h2 a f q h3 h4 h5

/-- One write to a place off the references Group. -/
theorem writeOne_ri {x : Ctx} (hn : NamesOk x.o) {n : Nat} {s s' : St} {res : Res (Option Nat)} (hR : RI x (LReach s.heap 0) s) {gs t : Str} {v : Val} (hv : ¬ HasRefArray v)
    (ho : OffRefs x.o (commonComps gs ++ [t])) {B : Nat} (hd : RandOk x s.rpos B) (hB : s'.rpos ≤ B) (h : writeOne x n (gs, t) v s = (res, s')) :
    RI x (LReach s'.heap 0) s' := by
  unfold writeOne at h
  dsimp only at h
  rcases bind_run (requireGroup (commonComps gs)) (fun g => writeData x n g (absName (commonComps gs)) t v) s with ⟨g, s1, e1, e2⟩ | ⟨e, s1, e1, e2⟩
  · rw [e2] at h
    have r := requireGroup_user hR.inv hR.tree ho e1
    obtain ⟨r1, r2, _, _⟩ := r.ok g rfl
    have hR1 : RI x (LReach s1.heap 0) s1 := (requireGroup_ri hR.widen ho e1).settle r.step.fr
    have hp := ho.pre r.step.inv hR1.tree r1 (isGroup_lt r2)
    have hnr := ho.notRefs hR1.tree r1
    have po := writeData_post hn.keys hn.vals n s1 g _ t v s' res hp h
    have out := writeData_ref hn.keys hn.vals n s1 g _ t v s' res B hR1.widen ⟨hp, fun hh => absurd hh hnr, fun hh => absurd hh hnr⟩
      (hd.mono r.step.fr.rpos) hB hv h
    exact out.ri.settle po.step.fr
  · rw [e2] at h; cases h
    have r := requireGroup_user hR.inv hR.tree ho e1
    exact (requireGroup_ri hR.widen ho e1).settle r.step.fr

theorem writeMany_ri {x : Ctx} (hn : NamesOk x.o) {n : Nat} {l : List ((Str × Str) × Val)} {s s' : St} {res : Res Unit} (hR : RI x (LReach s.heap 0) s)
    (hv : ∀ e ∈ l, ¬ HasRefArray e.2) (ho : ∀ e ∈ l, OffRefs x.o (commonComps e.1.1 ++ [e.1.2])) {B : Nat} (hd : RandOk x s.rpos B) (hB : s'.rpos ≤ B)
    (h : writeMany x n l s = (res, s')) : RI x (LReach s'.heap 0) s' := by
  induction l generalizing s with
  | nil => cases h; exact hR
  | cons e l ih =>
    obtain ⟨⟨gs, t⟩, v⟩ := e
    have ho1 := ho ((gs, t), v) (by simp)
    have hv1 := hv ((gs, t), v) (by simp)
    rw [writeMany] at h
    rcases bind_run (writeOne x n (gs, t) v) (fun _ => writeMany x n l) s with ⟨a, s1, e1, e2⟩ | ⟨e, s1, e1, e2⟩
    · rw [e2] at h
      obtain ⟨h1, h2⟩ := writeOne_keep hn hR.inv hR.tree ho1 e1
      have hr1 := writeMany_rpos hn h1 h2 (fun e he => ho e (by simp [he])) h
      have hR1 := writeOne_ri hn hR hv1 ho1 hd (Nat.le_trans hr1 hB) e1
      exact ih hR1 (fun e he => hv e (by simp [he])) (fun e he => ho e (by simp [he])) (hd.mono (writeOne_rpos hn hR.inv hR.tree ho1 e1)) h
    · rw [e2] at h; cases h
      exact writeOne_ri hn hR hv1 ho1 hd hB e1

/-- The invariant of a `File` that is used. -/
theorem used_ri {o : COpts} (hr : RefsPathOk o) {h0 : Heap} (ht : Tree h0) (hv : ValidRefs o h0) (ha : CanonAtA o h0) {x : Ctx} {F : FileS} (h : UsedFrom o h0 x F) :
    x.o.refsPath = o.refsPath ∧ NamesOk x.o ∧ RI x (LReach F.st.heap 0) F.st := by
  induction h with
  | opened x w hx hn =>
    refine ⟨hx, hn, tree_inv ht, ht, ?_, ?_, fun c hc => by cases hc⟩
    · intro p ob h1 h2 a f r h3 h4 h5
      obtain ⟨l, hl⟩ := LPath.reach .root h2
      obtain ⟨at', bo⟩ := ob
      dsimp only at h3
      subst h3
      obtain ⟨nm, hnm⟩ := hv _ p at' a f r hl h1 h4 h5
      obtain ⟨rg, h6, h7⟩ := lpath_snoc hnm
      rw [← hx] at h6
      exact ⟨rg, nm, resolve_lpath (plainComps x) h6, h7⟩
    · intro rg q h1 h2
      have h3 := lpath_resolve (plainComps x) h1
      rw [refsComps_eq, hx] at h3
      obtain ⟨ob, a, f, hq, hb, c2, c1, c3, c4, c5⟩ := ha q (.snoc h3 h2)
      refine ⟨_, hq, ?_⟩
      unfold isCanon
      rw [hb]
      dsimp only
      rw [if_neg (by simp only [c1, c3, ne_eq, not_true, false_or, or_false, Decidable.not_not]; exact c2), c4, c5]
      rfl
  | @reopened x y F w hF hy hn ih =>
    obtain ⟨hx, _, hR⟩ := ih
    have hxy : refsComps y.o = refsComps x.o := by rw [refsComps_eq, refsComps_eq, hy, hx]
    refine ⟨hy, hn, tree_inv hR.tree, hR.tree, ?_, ?_, fun c hc => by cases hc⟩
    · intro p ob h1 h2 a f r h3 h4 h5
      obtain ⟨rg, nm, h6, h7⟩ := hR.vals p ob h1 h2 a f r h3 h4 h5
      exact ⟨rg, nm, by rw [hxy]; exact h6, h7⟩
    · intro rg q h1 h2
      rw [hxy] at h1
      exact hR.canA rg q h1 h2
  | @wrote x F n mdict hF hroot hnr hd ih =>
    obtain ⟨hx, hn, hR⟩ := ih
    have hrx : RefsPathOk x.o := ⟨by rw [hx]; exact hr.abs, by rw [hx]; exact hr.notRoot⟩
    refine ⟨hx, hn, ?_⟩
    unfold fileWrites at hd ⊢
    split at hd
    · rename_i hc; rw [if_pos hc]; exact hR
    · rename_i hc
      rw [if_neg hc]
      cases hck : checkItems x.o.refsPath mdict with
      | error e => exact hR
      | ok tw =>
        rw [hck] at hd
        dsimp only at hd ⊢
        split at hd
        · rename_i hc2; rw [if_pos hc2]; exact hR
        · rename_i hc2
          rw [if_neg hc2]
          cases hro : F.ro with
          | true => rw [runFile_ro _ hro]; exact hR
          | false =>
            rw [runFile_rw _ hro] at hd ⊢
            refine writeMany_ri hn hR ?_ (checkItems_off hrx hck hroot) hd (Nat.le_refl _) (run_eta (writeMany x n tw) F.st)
            intro e he
            obtain ⟨pv, h1, _, h2⟩ := all2_right (checkItems_mem hck) e he
            rw [← h2]
            exact hnr pv h1
  | @deleted x F p hF hoff ih =>
    obtain ⟨hx, hn, hR⟩ := ih
    have hrx : RefsPathOk x.o := ⟨by rw [hx]; exact hr.abs, by rw [hx]; exact hr.notRoot⟩
    refine ⟨hx, hn, ?_⟩
    unfold fileDel
    split
    · exact hR
    cases hp : processPath p with
    | error e => exact hR
    | ok gt =>
      obtain ⟨g, t⟩ := gt
      dsimp only
      split
      · exact hR
      cases hj : pJoin [g, t] with
      | error e => exact hR
      | ok j =>
        dsimp only
        cases hro : F.ro with
        | true => rw [runFile_ro _ hro]; exact hR
        | false =>
          rw [runFile_rw _ hro]
          have ha : Addr p (commonComps j) := ⟨g, t, hp, joined_names hp hj⟩
          by_cases hne : commonComps j = []
          · rw [hne]; exact hR
          have ho : OffRefs x.o ([] ++ commonComps j) := ⟨addr_plain ha, hne, hrx.notRoot, by rw [refsComps_eq, hx]; exact hoff _ ha⟩
          show RI x (LReach (unlinkPath 0 (commonComps j) F.st).2.heap 0) (unlinkPath 0 (commonComps j) F.st).2
          rcases unlinkPath_user (commonComps j) [] 0 F.st _ _ ho.plain .root (run_eta (unlinkPath 0 (commonComps j)) F.st) with ⟨h1, _⟩ | ⟨gl, t', p', q, h1, h2, h3, _, h5⟩
          · rw [h1]; exact hR
          · rw [h5]
            rw [h1] at ho
            have hpre := ho.pre hR.inv hR.tree h2 (lpath_lt hR.tree h2)
            have hnr := ho.notRefs hR.tree h2
            have st := unlink_step hR.inv p' t' (fun _ => hpre.off)
            exact (hR.widen.filter (keep := fun k => !(k == t')) st noD_zero (by
              intro k hk
              have : k = t' := by simpa using hk
              rw [this]; exact hpre.off) (fun _ _ _ _ => hnr)).1.settle st.fr
  | closed hF ih => exact ih
  | @flushed x F hF ih =>
    unfold fileFlush
    split <;> exact ih

/-- References are valid in every state. -/
theorem used_valid {o : COpts} (hr : RefsPathOk o) {h0 : Heap} (ht : Tree h0) (hv : ValidRefs o h0) (ha : CanonAtA o h0) {x : Ctx} {F : FileS} (h : UsedFrom o h0 x F) :
    ValidRefs o F.st.heap := by
  obtain ⟨hx, _, hR⟩ := used_ri hr ht hv ha h
  intro ns p at' a f r h1 h2 h3 h4
  have hreach : ∀ {l q}, LPath F.st.heap l q → LReach F.st.heap 0 q := by
    intro l q hl
    induction hl with
    | root => exact .refl
    | snoc _ hl ih => exact .step ih hl
  obtain ⟨rg, nm, h5, h6⟩ := hR.vals p _ h2 (hreach h1) a f r rfl h3 h4
  have h7 := lpath_resolve (plainComps x) h5
  rw [refsComps_eq, hx] at h7
  exact ⟨nm, .snoc h7 h6⟩

end HS
