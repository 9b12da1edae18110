import Verif.Lemmas.FileRt
/-
The round trip through `File`.
-/
namespace HS
open Spec

theorem putDataset_nameOk {g q : Nat} {name : Str} {a : Arr} {f : Filters} {s s' : St} (h : putDataset g name a f s = (.ok q, s')) : nameOk name = true := by
  cases hn : nameOk name with
  | true => rfl
  | false =>
    exfalso
    unfold putDataset at h
    rw [run_getSt] at h
    simp only [hn] at h
    rw [if_neg (by simp)] at h
    simp only [createDset, createObj, hn] at h
    rw [if_pos (by simp)] at h
    cases h

theorem putAttrs_nameOk {g q : Nat} {name : Str} {a : Arr} {f : Filters} {new : List (Str × AIn)} {s s' : St}
    (h : (putDataset g name a f >>= fun p => setAttrsM p new true >>= fun _ => (pure (some p) : M (Option Nat))) s = (.ok (some q), s')) : nameOk name = true := by
  rcases bind_run (putDataset g name a f) (fun p => setAttrsM p new true >>= fun _ => (pure (some p) : M (Option Nat))) s with ⟨b, s1, e1, e2⟩ | ⟨e, s1, e1, e2⟩
  · exact putDataset_nameOk e1
  · rw [e2] at h; cases h

theorem writeNp_nameOk {x : Ctx} {g q : Nat} {name : Str} {c : Cont} {a : Arr} {ts : Str} {s s' : St} (h : writeNp x g name c a ts s = (.ok (some q), s')) :
    nameOk name = true := by
  unfold writeNp at h
  split at h
  · cases h
  · split at h
    · cases h
    · cases hd : prepare x.o c a with
      | error e => rw [hd] at h; cases h
      | ok d =>
        rw [hd] at h
        exact putAttrs_nameOk h

theorem writeNpObj_nameOk {x : Ctx} {wr : Wr} {g q : Nat} {name : Str} {c : Cont} {shape : List Nat} {elems : List Val} {ts : Str} {s s' : St}
    (h : writeNpObj x wr g name c shape elems ts s = (.ok (some q), s')) : nameOk name = true := by
  unfold writeNpObj at h
  generalize (if x.o.reverse = true then _ else elems) = el at h
  generalize (if x.o.reverse = true then (if x.o.atleast2d = true then atleast2dShape shape else shape).reverse else _) = sh' at h
  split at h
  · rw [run_pure_bind] at h
    exact putAttrs_nameOk h
  · rcases bind_run (writeObjectArray x wr el >>= fun refs => (pure ⟨.ref, sh', refs.map El.ref⟩ : M Arr)) _ s with ⟨d, s1, e1, e2⟩ | ⟨e, s1, e1, e2⟩
    · rw [e2] at h
      exact putAttrs_nameOk h
    · rw [e2] at h; cases h

theorem writeDict_nameOk {x : Ctx} {wr : Wr} {g q : Nat} {gname name : Str} {keys vals : List Val} {struct : Bool} {ts : Str} {s s' : St}
    (h : writeDict x wr g gname name keys vals struct ts s = (.ok (some q), s')) : nameOk name = true := by
  unfold writeDict at h
  dsimp only at h
  change (getGroup g name >>= fun g2 => _) s = _ at h
  rcases bind_run (getGroup g name) _ s with ⟨g2, s1, e1, e2⟩ | ⟨e, s1, e1, e2⟩
  · cases hn : nameOk name with
    | true => rfl
    | false =>
      have : getLink g name s = (.error .unicodeError, s) := by simp [getLink, hn]
      rw [getGroup, run_bind_err this] at e1
      cases e1
  · rw [e2] at h; cases h

theorem writeStruct_nameOk {x : Ctx} {wr : Wr} {g q : Nat} {gname name : Str} {c : Cont} {shape : List Nat} {names : List Str} {types : List FT} {elems : List Val}
    {ts : Str} {s s' : St} (h : writeStruct x wr g gname name c shape names types elems ts s = (.ok (some q), s')) : nameOk name = true := by
  rcases writeStruct_cases h with ⟨_, e, h⟩ | ⟨_, _, _, _, h⟩ | ⟨_, esc, he, ⟨_, h⟩ | ⟨_, _, h⟩ | ⟨_, _, _, h⟩⟩
  · cases h
  · cases h
  · exact putAttrs_nameOk h
  rotate_left
  · exact putAttrs_nameOk h
  · unfold writeGroup at h
    rcases bind_run (getGroup g name) _ s with ⟨g2, s1, e1, e2⟩ | ⟨e, s1, e1, e2⟩
    · cases hn : nameOk name with
      | true => rfl
      | false =>
        have : getLink g name s = (.error .unicodeError, s) := by simp [getLink, hn]
        rw [getGroup, run_bind_err this] at e1
        cases e1
    · rw [e2] at h; cases h

theorem writeData_nameOk {x : Ctx} {n g q : Nat} {gname name : Str} {v : Val} {s s' : St} (h : writeData x n g gname name v s = (.ok (some q), s')) :
    nameOk name = true := by
  cases n with
  | zero => cases h
  | succ n =>
    have hleaf : ∀ w : Val, (match leafOf w with | some (c, a) => writeNp x g name c a (tsOf w) | none => raise .notImplemented) s = (.ok (some q), s') →
        nameOk name = true := by
      intro w h
      cases hl : leafOf w with
      | none => rw [hl] at h; cases h
      | some ca =>
        obtain ⟨c, a⟩ := ca
        rw [hl] at h
        exact writeNp_nameOk h
    cases v with
    | npObj c shape elems => exact writeNpObj_nameOk h
    | seq k elems => exact writeNpObj_nameOk h
    | dict k keys vals => exact writeDict_nameOk h
    | record k vals => exact writeDict_nameOk h
    | npStruct c shape names types elems => exact writeStruct_nameOk h
    | none => exact hleaf (.none) h
    | ellipsis => exact hleaf (.ellipsis) h
    | notImplemented => exact hleaf (.notImplemented) h
    | bool b => exact hleaf (.bool b) h
    | int i => exact hleaf (.int i) h
    | float f => exact hleaf (.float f) h
    | complex a b => exact hleaf (.complex a b) h
    | str t => exact hleaf (.str t) h
    | bytes b => exact hleaf (.bytes b) h
    | bytearray b => exact hleaf (.bytearray b) h
    | np c a => exact hleaf (.np c a) h
    | dtypeObj t => exact hleaf (.dtypeObj t) h
    | other => exact hleaf (.other) h

theorem not_prefix_snoc {α : Type} {l : List α} {c : α} : ¬ (l ++ [c]) <+: l := by
  intro h
  have := h.length_le
  simp at this
  omega

/-- One write to an unused place. -/
theorem writeOne_rt {x : Ctx} (hR : RtOpts x.o) {n : Nat} {s s' : St} {ob : Option Nat} (hi : Inv x s) (ht : Tree s.heap) {gs t : Str} {v : Val}
    (ho : OffRefs x.o (commonComps gs ++ [t])) (hfree : ¬ Exists s.heap (commonComps gs ++ [t])) (hr : RandOk x s.rpos s'.rpos) (hv : Good x.o v)
    (h : writeOne x n (gs, t) v s = (.ok ob, s')) : ∃ g q, resolve s'.heap 0 (commonComps gs) = some g ∧ isGroup s'.heap g = true ∧ LinkAt s'.heap g t q ∧
      (commonComps gs).all nameOk = true ∧ nameOk t = true ∧ NewObj x s s' q ∧ Reads x n s s' q v := by
  unfold writeOne at h
  dsimp only at h
  rcases bind_run (requireGroup (commonComps gs)) (fun g => writeData x n g (absName (commonComps gs)) t v) s with ⟨g, s1, e1, e2⟩ | ⟨e, s1, e1, e2⟩
  · rw [e2] at h
    have r := requireGroup_user hi ht ho e1
    obtain ⟨r1, r2, r3, r4⟩ := r.ok g rfl
    have ht1 := tree_step ht r.step (fun h => h)
    have hp := ho.pre r.step.inv ht1 r1 (isGroup_lt r2)
    have hf : Fresh s1 g t := by
      intro q hl
      rcases r3 with h3 | h3
      · rw [h3] at hl r1
        exact hfree ⟨q, .snoc r1 hl⟩
      · rw [LinkAt, h3] at hl; cases hl
    have hnr := ho.notRefs ht1 r1
    have hslot : Slot x s'.rpos s1 g t := fun h => absurd h hnr
    have hb : s1.rpos = s.rpos := r.bk.2.2.2.1
    obtain ⟨q, rfl, out⟩ := writeData_rt hR n s1 g _ t v s' ob s'.rpos hp hf hslot (by rw [hb]; exact hr) (Nat.le_refl _) hv h
    have po := writeData_post (Spec.RtOpts.keys_ne hR) (Spec.RtOpts.vals_ne hR) n s1 g _ t v s' _ hp h
    have hcomps : commonComps gs = [] ∨ OffRefs x.o (commonComps gs) := by
      by_cases hc : commonComps gs = []
      · exact Or.inl hc
      · exact Or.inr (ho.prefix (List.prefix_append _ _) hc)
    have hpath := po.step.fr.resolve_user ht1 r1 hcomps not_prefix_snoc
    rw [resolve_lpath (commonComps_plain gs) r1] at hpath
    refine ⟨g, q, hpath, ?_, out.link hnr, r4, writeData_nameOk h, ?_, ?_⟩
    · obtain ⟨at', l, hg⟩ := isGroup_get r2
      obtain ⟨o', h1, _, h3⟩ := po.step.fr.obj g _ hg (fresh_noTgt hf g)
      exact isGroup_of_kind hg h1 h3 r2
    · exact ⟨Nat.le_trans r.step.fr.len out.new.1, out.new.2⟩
    · exact out.reads.later r.step.fr.len (Fr.rfl' (A := noA) (D := noD) po.step.inv.wf) (fun _ _ => rfl)
  · rw [e2] at h; cases h

/-- Reading the place just written. -/
theorem readOne_of {x y : Ctx} {n m : Nat} {s s' : St} {gs t : Str} {g q : Nat} {v : Val} (h1 : resolve s'.heap 0 (commonComps gs) = some g)
    (h2 : isGroup s'.heap g = true) (h3 : LinkAt s'.heap g t q) (h4 : (commonComps gs).all nameOk = true) (h5 : nameOk t = true) (hd : t ≠ [dot])
    (hr : Reads x n s s' q v) (hm : n ≤ m) (hy : y.o.refsPath = x.o.refsPath) (hro : ReadableWith x.o y.o v) : readOne y m s'.heap (gs, t) = .ok v := by
  unfold readOne
  dsimp only
  rw [if_pos h4, h1]
  dsimp only
  rw [if_pos h2, if_pos h5, hlook_plain _ _ _ hd]
  rw [LinkAt] at h3
  rw [h3]
  refine hr _ _ _ m hro (fun _ _ => rfl) ?_ hm
  intro r hr hn
  rw [exclOf, hy] at hr
  exact hn.2.2 ⟨_, List.prefix_refl _, hr⟩

theorem addr_check {o : COpts} (hr : RefsPathOk o) {p : PathArg} {l : List Str} {t : Str} (ho : OffRefs o (l ++ [t])) (ha : Addr p (l ++ [t])) :
    ∃ gs, checkPath o.refsPath p = .ok (gs, t) ∧ commonComps gs = l := by
  obtain ⟨g, t', h1, h2⟩ := ha
  rcases processPath_names h1 with ⟨_, h3, h4⟩ | ⟨h3, _⟩
  · rw [h3, h4] at h2; simp at h2
  · rw [h3] at h2
    have h5 := List.append_inj' h2 rfl
    have h6 : t = t' := by simpa using h5.2
    subst h6
    refine ⟨g, ?_, h5.1.symm⟩
    rcases checkPath_iff o.refsPath hr.abs p g t h1 with ⟨_, y, h7, h8⟩ | ⟨h7, _⟩
    · exfalso
      rw [h3, ← h5.1] at h8
      exact ho.head (by rw [h8, refsComps_eq, h7])
    · exact h7

/-- Writing to an unused place of a reachable file and reading it back. -/
theorem file_rt {x : Ctx} (hR : RtOpts x.o) {F F' : FileS} {p : PathArg} {ns : List Str} {v : Val} {n : Nat} (hw : WroteNew x n F p ns v F') (hv : Good x.o v) :
    ReadsBack x n F'.st.heap ns v := by
  obtain ⟨hp, hF, hro, ha, hne, hfree, hr, h⟩ := hw
  obtain ⟨hi, ht⟩ := reach_keep hp (Spec.RtOpts.names hR) hF
  unfold fileWrite fileWrites at h
  split at h
  · cases h
  cases hc : checkItems x.o.refsPath [(p, v)] with
  | error e => rw [hc] at h; cases h
  | ok tw =>
    rw [hc] at h
    dsimp only at h
    split at h
    · cases h
    rename_i hopen
    obtain ⟨⟨gs, t⟩, h1, h2⟩ := res_bind_ok.mp hc
    obtain ⟨l, h3, h4⟩ := res_bind_ok.mp h2
    cases h3
    cases h4
    obtain ⟨c1, c2, c3⟩ := checkPath_off hp h1
    have hd : t ≠ [dot] := by
      intro hd
      exact hne (addr_unique ha (c3 hd))
    obtain ⟨ho, hns⟩ := c2 hd
    have hns' : ns = commonComps gs ++ [t] := addr_unique ha ⟨gs, t, c1, hns.symm⟩
    subst hns'
    rcases bind_run (writeOne x n (gs, t) v) (fun _ => writeMany x n []) F.st with ⟨ob, s1, e1, e2⟩ | ⟨e, s1, e1, e2⟩
    · have e3 : writeMany x n [((gs, t), v)] F.st = (.ok (), s1) := e2
      rw [runFile_rw _ hro, e3] at h
      cases h
      obtain ⟨g, q, a1, a2, a3, a4, a5, _, a7⟩ := writeOne_rt hR hi ht ho hfree hr hv e1
      intro y G p' m hy hyr hG hh ha' hm
      obtain ⟨gs', d1, d2⟩ := addr_check hp ho ha'
      rw [← d2] at a1 a4
      have hro := readOne_of a1 a2 a3 a4 a5 hd a7 hm hy hyr
      rw [← hy] at d1
      unfold fileRead fileReads
      simp only [checkPaths, d1, bind, Except.bind, hG, readMany, hh, hro]
      rfl
    · have e3 : writeMany x n [((gs, t), v)] F.st = (.error e, s1) := e2
      rw [runFile_rw _ hro, e3] at h; cases h

end HS
