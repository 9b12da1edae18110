import Verif.Lemmas.Away
import Verif.Lemmas.UserDict
import Verif.Spec.User
import Verif.Props.Dispatch
/-
Objects of a user's own types.
-/
namespace HS
open Spec
variable {α : Type}

theorem parentWrite_post {x : Ctx} (hn : NamesOk x.o) {n : Nat} {P : Parent} {ts : Str} {s s' : St} {res : Res (Option Nat)} {g : Nat} {gname name : Str} {v : Val}
    (hp : Pre x s g name) (h : parentWrite x (writeData x n) P ts g gname name v s = (res, s')) : Post x g name s s' (fun p => res = .ok (some p)) := by
  have hwr := writeData_post hn.keys hn.vals n
  unfold parentWrite at h
  split at h
  · exact writeNp_post hp _ _ _ h
  · exact writeNpObj_post hwr hp _ _ _ _ h
  · exact writeStruct_post hwr hp h
  · exact writeNpObj_post hwr hp _ _ _ _ h
  · exact writeDict_post hn.keys hn.vals hwr hp _ _ _ _ h
  · cases h; exact Post.refl hp.inv (fun p h => by cases h)

theorem parentWrite_nameOk {x : Ctx} {n : Nat} {P : Parent} {ts : Str} {s s' : St} {g q : Nat} {gname name : Str} {v : Val}
    (h : parentWrite x (writeData x n) P ts g gname name v s = (.ok (some q), s')) : nameOk name = true := by
  unfold parentWrite at h
  split at h
  · exact writeNp_nameOk h
  · exact writeNpObj_nameOk h
  · exact writeStruct_nameOk h
  · exact writeNpObj_nameOk h
  · exact writeDict_nameOk h
  · cases h

theorem userWriteData_post {S : Setup α} {x : Ctx} (hn : NamesOk x.o) {n : Nat} {s s' : St} {res : Res (Option Nat)} {g : Nat} {gname name : Str} {a : α}
    (hp : Pre x s g name) (h : userWriteData S x n g gname name a s = (res, s')) : Post x g name s s' (fun p => res = .ok (some p)) := by
  unfold userWriteData at h
  cases n with
  | zero => cases h; exact Post.refl hp.inv (fun p h => by cases h)
  | succ n =>
    cases hw : S.writer a with
    | none => simp only [hw] at h; cases h; exact Post.refl hp.inv (fun p h => by cases h)
    | some pl =>
      simp only [hw] at h
      cases hy : S.ready pl with
      | false => simp only [hy] at h; cases h; exact Post.refl hp.inv (fun p h => by cases h)
      | true =>
        simp only [hy, if_true] at h
        cases ht : getTypeString pl.tables (S.cls a) none with
        | error e => rw [ht] at h; cases h; exact Post.refl hp.inv (fun p h => by cases h)
        | ok ts =>
          rw [ht] at h
          exact parentWrite_post hn hp h

theorem userWriteOne_keep {S : Setup α} {x : Ctx} (hn : NamesOk x.o) {n : Nat} {s s' : St} {res : Res (Option Nat)} (hi : Inv x s) (ht : Tree s.heap) {gs t : Str} {a : α}
    (ho : OffRefs x.o (commonComps gs ++ [t])) (h : userWriteOne S x n (gs, t) a s = (res, s')) : Inv x s' ∧ Tree s'.heap := by
  unfold userWriteOne at h
  dsimp only at h
  rcases bind_run (requireGroup (commonComps gs)) (fun g => userWriteData S x n g (absName (commonComps gs)) t a) s with ⟨g, s1, e1, e2⟩ | ⟨e, s1, e1, e2⟩
  · rw [e2] at h
    have r := requireGroup_user hi ht ho e1
    obtain ⟨r1, r2, _, _⟩ := r.ok g rfl
    have ht1 := tree_step ht r.step (fun h => h)
    have hp := ho.pre r.step.inv ht1 r1 (isGroup_lt r2)
    have po := userWriteData_post hn hp h
    exact ⟨po.step.inv, tree_step ht1 po.step (tgt_root ht1)⟩
  · rw [e2] at h; cases h
    have r := requireGroup_user hi ht ho e1
    exact ⟨r.step.inv, tree_step ht r.step (fun h => h)⟩

theorem userWriteOne_away {S : Setup α} {x : Ctx} (hn : NamesOk x.o) {n : Nat} {s s' : St} {res : Res (Option Nat)} (hi : Inv x s) (ht : Tree s.heap) {gs t : Str} {a : α}
    {ms : List Str} (ho : OffRefs x.o (commonComps gs ++ [t])) (hms : OffRefs x.o ms) (ha : Apart (commonComps gs ++ [t]) ms)
    (h : userWriteOne S x n (gs, t) a s = (res, s')) : Away x.o ms s.heap s'.heap := by
  unfold userWriteOne at h
  dsimp only at h
  rcases bind_run (requireGroup (commonComps gs)) (fun g => userWriteData S x n g (absName (commonComps gs)) t a) s with ⟨g, s1, e1, e2⟩ | ⟨e, s1, e1, e2⟩
  · rw [e2] at h
    have r := requireGroup_user hi ht ho e1
    obtain ⟨r1, r2, _, _⟩ := r.ok g rfl
    have ht1 := tree_step ht r.step (fun h => h)
    have hp := ho.pre r.step.inv ht1 r1 (isGroup_lt r2)
    have po := userWriteData_post hn hp h
    exact (requireGroup_away ht ho hms ha r).trans (writeAt_away ht1 r1 ho hms ha po.step.fr)
  · rw [e2] at h; cases h
    exact requireGroup_away ht ho hms ha (requireGroup_user hi ht ho e1)

/-- What `userWrite` does to the file: nothing, or one write. -/
theorem userWrite_cases {S : Setup α} {x : Ctx} (hr : RefsPathOk x.o) {n : Nat} {p : PathArg} {a : α} {F : FileS} (hroot : ¬ Addr p []) :
    (userWrite S x n p a F).2.st = F.st ∨ ∃ gs t, OffRefs x.o (commonComps gs ++ [t]) ∧ Addr p (commonComps gs ++ [t]) ∧ ∃ res s', userWriteOne S x n (gs, t) a F.st = (res, s') ∧
      (userWrite S x n p a F).2.st = s' := by
  unfold userWrite
  split
  · exact Or.inl rfl
  cases hc : checkPath x.o.refsPath p with
  | error e => exact Or.inl rfl
  | ok gt =>
    obtain ⟨gs, t⟩ := gt
    dsimp only
    split
    · exact Or.inl rfl
    cases hro : F.ro with
    | true => rw [runFile_ro _ hro]; exact Or.inl rfl
    | false =>
      rw [runFile_rw _ hro]
      obtain ⟨c1, c2, c3⟩ := checkPath_off hr hc
      obtain ⟨h1, h2⟩ := c2 (fun hd => hroot (c3 hd))
      refine Or.inr ⟨gs, t, h1, ⟨gs, t, c1, h2.symm⟩, _, _, run_eta (userWriteOne S x n (gs, t) a) F.st, ?_⟩
      rcases bind_run (userWriteOne S x n (gs, t) a) (fun _ => (pure () : M Unit)) F.st with ⟨b, s1, e1, e2⟩ | ⟨e, s1, e1, e2⟩
      · show ((userWriteOne S x n (gs, t) a >>= fun _ => (pure () : M Unit)) F.st).2 = _
        rw [e2, e1]; rfl
      · show ((userWriteOne S x n (gs, t) a >>= fun _ => (pure () : M Unit)) F.st).2 = _
        rw [e2, e1]

theorem fileWrites_keep {x : Ctx} (hr : RefsPathOk x.o) (hn : NamesOk x.o) {F : FileS} (ih : Inv x F.st ∧ Tree F.st.heap) {n : Nat} {mdict : List (PathArg × Val)}
    (hroot : ∀ pv ∈ mdict, ¬ Addr pv.1 []) : Inv x (fileWrites x n mdict F).2.st ∧ Tree (fileWrites x n mdict F).2.st.heap := by
  unfold fileWrites
  split
  · exact ih
  cases hc : checkItems x.o.refsPath mdict with
  | error e => exact ih
  | ok tw =>
    dsimp only
    split
    · exact ih
    cases hro : F.ro with
    | true => rw [runFile_ro _ hro]; exact ih
    | false =>
      rw [runFile_rw _ hro]
      exact writeMany_keep hn ih.1 ih.2 (checkItems_off hr hc hroot) (run_eta (writeMany x n tw) F.st)

theorem fileDel_keep {x : Ctx} (hr : RefsPathOk x.o) {F : FileS} (ih : Inv x F.st ∧ Tree F.st.heap) {p : PathArg}
    (hoff : ∀ ns, Addr p ns → ns.head? ≠ (hdf5Names x.o.refsPath).head?) : Inv x (fileDel p F).2.st ∧ Tree (fileDel p F).2.st.heap := by
  unfold fileDel
  split
  · exact ih
  cases hp : processPath p with
  | error e => exact ih
  | ok gt =>
    obtain ⟨g, t⟩ := gt
    dsimp only
    split
    · exact ih
    cases hj : pJoin [g, t] with
    | error e => exact ih
    | ok j =>
      dsimp only
      cases hro : F.ro with
      | true => rw [runFile_ro _ hro]; exact ih
      | false =>
        rw [runFile_rw _ hro]
        have ha : Addr p (commonComps j) := ⟨g, t, hp, joined_names hp hj⟩
        by_cases hne : commonComps j = []
        · rw [hne]; exact ih
        have ho : OffRefs x.o ([] ++ commonComps j) := ⟨addr_plain ha, hne, hr.notRoot, hoff _ ha⟩
        rcases unlinkPath_user (commonComps j) [] 0 F.st _ _ ho.plain .root (run_eta (unlinkPath 0 (commonComps j)) F.st) with ⟨h1, _⟩ | ⟨gl, t', p', q, h1, h2, h3, _, h5⟩
        · show Inv x (unlinkPath 0 (commonComps j) F.st).2 ∧ Tree (unlinkPath 0 (commonComps j) F.st).2.heap
          rw [h1]; exact ih
        · show Inv x (unlinkPath 0 (commonComps j) F.st).2 ∧ Tree (unlinkPath 0 (commonComps j) F.st).2.heap
          rw [h5]
          rw [h1] at ho
          have hpre := ho.pre ih.1 ih.2 h2 (lpath_lt ih.2 h2)
          have st := unlink_step ih.1 p' t' (fun _ => hpre.off)
          exact ⟨st.inv, tree_step ih.2 st (fun h => h)⟩

theorem reachUser_keep {x : Ctx} (hr : RefsPathOk x.o) (hn : NamesOk x.o) {F : FileS} (h : ReachUser α x F) : Inv x F.st ∧ Tree F.st.heap := by
  induction h with
  | opened h w ht => exact ⟨tree_inv ht, ht⟩
  | @wrote F n mdict hF hroot ih => exact fileWrites_keep hr hn ih hroot
  | @user F S n p a hF hroot ih =>
    rcases userWrite_cases (S := S) (n := n) (a := a) (F := F) hr hroot with h | ⟨gs, t, h1, _, res, s', h2, h3⟩
    · rw [h]; exact ih
    · rw [h3]; exact userWriteOne_keep hn ih.1 ih.2 h1 h2
  | @deleted F p hF hoff ih => exact fileDel_keep hr ih hoff
  | closed hF ih => exact ih
  | @flushed F hF ih =>
    unfold fileFlush
    split <;> exact ih

theorem userOp_away {S : Setup α} {x : Ctx} (hr : RefsPathOk x.o) (hn : NamesOk x.o) {n : Nat} {F : FileS} (hF : ReachUser α x F) {ms : List Str} {op : UserOp α} (hms : OffRefs x.o ms)
    (ha : ElsewhereUser x.o op ms) : Away x.o ms F.st.heap (userOp S x n op F).st.heap ∧ ReachUser α x (userOp S x n op F) := by
  obtain ⟨hi, ht⟩ := reachUser_keep hr hn hF
  have hnil : ∀ {ns : List Str}, Apart ns ms → ns ≠ [] := fun h he => h.1 (by rw [he]; exact List.nil_prefix)
  cases op with
  | write p a =>
    have hroot : ¬ Addr p [] := fun h => hnil (ha _ h) rfl
    refine ⟨?_, .user S n p a hF hroot⟩
    show Away x.o ms F.st.heap (userWrite S x n p a F).2.st.heap
    rcases userWrite_cases (S := S) (n := n) (a := a) (F := F) hr hroot with h | ⟨gs, t, h1, h0, res, s', h2, h3⟩
    · rw [h]; exact .refl _ _ _
    · rw [h3]; exact userWriteOne_away hn hi ht h1 hms (ha _ h0) h2
  | builtin op =>
    cases op with
    | writes m => exact ⟨fileWrites_away hr hn hi ht hms ha, .wrote n m hF fun pv h1 h2 => hnil (ha pv h1 _ h2) rfl⟩
    | write p v =>
      have ha' : ∀ pv ∈ [(p, v)], ∀ ns, Addr pv.1 ns → Apart ns ms := by
        intro pv hpv
        simp only [List.mem_singleton] at hpv
        subst hpv; exact ha
      exact ⟨fileWrites_away hr hn hi ht hms ha', .wrote n [(p, v)] hF fun pv h1 h2 => hnil (ha' pv h1 _ h2) rfl⟩
    | del p => exact ⟨fileDel_away hr hi ht hms ha, .deleted p hF fun ns h => (ha ns h).2⟩
    | close => exact ⟨.refl _ _ _, .closed hF⟩
    | flush =>
      refine ⟨?_, .flushed hF⟩
      show Away x.o ms F.st.heap (fileFlush F).2.st.heap
      unfold fileFlush
      split <;> exact .refl _ _ _
    | _ => exact ⟨.refl _ _ _, hF⟩

theorem userOps_away {S : Setup α} {x : Ctx} (hr : RefsPathOk x.o) (hn : NamesOk x.o) {n : Nat} {ops : List (UserOp α)} {F : FileS} (hF : ReachUser α x F) {ms : List Str}
    (hms : OffRefs x.o ms) (ha : ∀ op ∈ ops, ElsewhereUser x.o op ms) :
    Away x.o ms F.st.heap (userOps S x n ops F).st.heap ∧ ReachUser α x (userOps S x n ops F) := by
  induction ops generalizing F with
  | nil => exact ⟨.refl _ _ _, hF⟩
  | cons op ops ih =>
    obtain ⟨h1, h2⟩ := userOp_away (S := S) (n := n) hr hn hF hms (ha op (by simp))
    obtain ⟨h3, h4⟩ := ih h2 fun op hop => ha op (by simp [hop])
    rw [userOps]
    exact ⟨h1.trans h3, h4⟩

/-- What the parent has written, it can read. -/
theorem parentWrite_rt {x : Ctx} (ho : RtOpts x.o) {n B : Nat} {P : Parent} {ts : Str} {s s' : St} {ob : Option Nat} {g : Nat} {gname name : Str} {v : Val}
    (hp : Pre x s g name) (hf : Fresh s g name) (hsl : Slot x B s g name) (hR : RandOk x s.rpos B) (hB : s'.rpos ≤ B) (hv : Payload x.o P v)
    (h : parentWrite x (writeData x n) P ts g gname name v s = (.ok ob, s')) :
    ∃ oid, ob = some oid ∧ NewObj x s s' oid ∧ (resolve s.heap 0 (refsComps x.o) ≠ some g → LinkAt s'.heap g name oid) ∧
      ∃ ob', viewOf s'.heap oid = some ob' ∧ attrToString (aget ob'.attrs p!"Python.Type") = .ok (some ts) ∧
        (∃ mc, attrToString (aget ob'.attrs p!"MATLAB_class") = .ok mc) ∧
        ∀ (ro : COpts) (V : View) (excl : Option Nat) (m : Nat), ReadableWith x.o ro v → (∀ p, NewObj x s s' p → V p = viewOf s'.heap p) →
          (∀ q, excl = some q → ¬ NewObj x s s' q) → n ≤ m →
          parentRead P (looksMulti V) (readData ro V excl m) ro excl ob' = .ok (handedBack P v) ∧
            (∀ w, Bare P v w → readNp (looksMulti V) (readData ro V excl m) ro excl ob' = .ok w) ∧
            ∀ plain k keys vals texts us, P = .dict plain → v = .dict k keys vals → BareItems x.o keys vals texts us →
              (x.o.matlab && plain && ro.structsAsDicts) = true ∨ (texts ≠ [] ∧ [] ∉ texts) →
              ∃ w, readNp (looksMulti V) (readData ro V excl m) ro excl ob' = .ok w ∧ BareDict (x.o.matlab && plain && ro.structsAsDicts) texts us w := by
  have hwr := writeData_post ho.keys_ne ho.vals_ne n
  obtain ⟨hrt, hmul⟩ := writeData_rt2 ho n
  have num : ∀ w, (∃ oid, ob = some oid ∧ NewObj x s s' oid ∧ (resolve s.heap 0 (refsComps x.o) ≠ some g → LinkAt s'.heap g name oid) ∧
      ∃ ob', viewOf s'.heap oid = some ob' ∧ attrToString (aget ob'.attrs p!"Python.Type") = .ok (some ts) ∧
        (∃ mc, attrToString (aget ob'.attrs p!"MATLAB_class") = .ok mc) ∧
        ∀ (ro : COpts) (V : View) (excl : Option Nat) (m : Nat), ReadableWith x.o ro w → (∀ p, NewObj x s s' p → V p = viewOf s'.heap p) →
          (∀ q, excl = some q → ¬ NewObj x s s' q) → n ≤ m → readNp (looksMulti V) (readData ro V excl m) ro excl ob' = .ok w) →
      ∃ oid, ob = some oid ∧ NewObj x s s' oid ∧ (resolve s.heap 0 (refsComps x.o) ≠ some g → LinkAt s'.heap g name oid) ∧
      ∃ ob', viewOf s'.heap oid = some ob' ∧ attrToString (aget ob'.attrs p!"Python.Type") = .ok (some ts) ∧
        (∃ mc, attrToString (aget ob'.attrs p!"MATLAB_class") = .ok mc) ∧
        ∀ (ro : COpts) (V : View) (excl : Option Nat) (m : Nat), ReadableWith x.o ro w → (∀ p, NewObj x s s' p → V p = viewOf s'.heap p) →
          (∀ q, excl = some q → ¬ NewObj x s s' q) → n ≤ m →
          parentRead .numpy (looksMulti V) (readData ro V excl m) ro excl ob' = .ok (handedBack .numpy w) ∧
            (∀ w', Bare .numpy w w' → readNp (looksMulti V) (readData ro V excl m) ro excl ob' = .ok w') ∧
            ∀ plain k keys vals texts us, Parent.numpy = .dict plain → w = .dict k keys vals → BareItems x.o keys vals texts us →
              (x.o.matlab && plain && ro.structsAsDicts) = true ∨ (texts ≠ [] ∧ [] ∉ texts) →
              ∃ w2, readNp (looksMulti V) (readData ro V excl m) ro excl ob' = .ok w2 ∧ BareDict (x.o.matlab && plain && ro.structsAsDicts) texts us w2 := by
    rintro w ⟨oid, h0, h1, h2, ob', h3, h4, h5, h6⟩
    refine ⟨oid, h0, h1, h2, ob', h3, h4, h5, ?_⟩
    intro ro V excl m c1 c2 c3 c4
    have := h6 ro V excl m c1 c2 c3 c4
    exact ⟨this, fun w' hb => by cases hb; exact this, fun _ _ _ _ _ _ h => by cases h⟩
  cases hv with
  | array c a hc hg =>
    cases hg with
    | np _ _ h1 h2 h3 =>
      obtain ⟨oid, rfl, h4, h5, ob', h6, h7, h8, h9⟩ := writeNp_fresh ho.optsOk ho.pyMeta hp hf h1 (fun h => absurd h hc) h2 h3 h
      exact num _ ⟨oid, rfl, h4, fun _ => h5, ob', h6, h7, h8, fun ro V excl m hro _ _ _ => h9 ro _ _ excl hro.order⟩
  | objects c shape elems hg =>
    cases hg with
    | npObj _ _ _ h1 h2 h3 =>
      obtain ⟨oid, rfl, h4, h5, ob', h6, h7, h8, h9⟩ := writeNpObj_rt ho.optsOk ho.pyMeta hwr hrt hp hf hsl hR hB c shape elems ts h1 h2 h3 h
      exact num _ ⟨oid, rfl, h4, fun _ => h5, ob', h6, h7, h8, h9⟩
  | table c shape names types elems hc hg =>
    cases hg with
    | npStruct _ _ _ _ _ h1 h2 =>
      obtain ⟨oid, rfl, h4, h5, ob', h6, h7, h8, h9⟩ := struct_rt_as ho.optsOk ho.pyMeta hwr hrt (hmul B) hp hf hR hB c shape names types elems h1 h2 (fun h => absurd h hc) h
      exact num _ ⟨oid, rfl, h4, h5, ob', h6, h7, h8, h9⟩
    | npTable _ _ _ _ _ h1 =>
      obtain ⟨oid, rfl, h4, h5, ob', h6, h7, h8, h9⟩ := table_rt_as ho.pyMeta hwr hp hf c shape names types elems h1 (fun h => absurd h hc) h
      exact num _ ⟨oid, rfl, h4, fun _ => h5, ob', h6, h7, h8, fun ro V excl m hro _ _ _ => h9 ro _ _ excl hro⟩
  | list k elems hg =>
    obtain ⟨oid, rfl, h4, h5, ob', h6, h7, h8, h9⟩ := writeNpObj_rt ho.optsOk ho.pyMeta hwr hrt hp hf hsl hR hB .ndarray [elems.length] elems ts (Or.inl rfl) (by simp [prodN]) hg h
    refine ⟨oid, rfl, h4, fun _ => h5, ob', h6, h7, h8, ?_⟩
    intro ro V excl m c1 c2 c3 c4
    have := h9 ro V excl m (readable_seq c1) c2 c3 c4
    refine ⟨?_, fun w hb => (by cases hb; exact this), fun _ _ _ _ _ _ h => by cases h⟩
    show (readNp (looksMulti V) (readData ro V excl m) ro excl ob' >>= fun w => toSeq .list w) = _
    rw [this]
    rfl
  | dict plain k keys vals hg =>
    have : vals.length = keys.length ∧ (∀ v ∈ vals, Good x.o v) ∧
        ((∃ texts, All2 KeyText keys texts ∧ texts.Nodup) ∨ ((∃ k ∈ keys, NotTextKey k) ∧ KvNames x.o ∧ ∀ k ∈ keys, Good x.o k)) := by
      cases hg with
      | dictText _ _ _ texts h1 h2 h3 h4 => exact ⟨h3, h4, Or.inl ⟨texts, h1, h2⟩⟩
      | dictAny _ _ _ h1 h0 h2 h3 h4 => exact ⟨h2, h4, Or.inr ⟨h1, h0, h3⟩⟩
    obtain ⟨hlen, hgv, hk⟩ := this
    have fin : ∀ {rd : Rd} {ro : COpts} {excl : Option Nat} {ob' : Obj}, readDictItems rd ro excl ob' = .ok (keys.zip vals) →
        (readDictItems rd ro excl ob' >>= fun it => Except.ok (Val.dict .dict (it.map (·.1)) (it.map (·.2)))) = .ok (handedBack (.dict plain) (.dict k keys vals)) := by
      intro rd ro excl ob' h
      rw [h]
      show Except.ok (Val.dict .dict ((keys.zip vals).map (·.1)) ((keys.zip vals).map (·.2))) = _
      rw [map_fst_zip _ _ hlen.symm, map_snd_zip _ _ hlen.symm]
      rfl
    have dr : ∀ {ro : COpts}, ReadableWith x.o ro (.dict k keys vals) → ReadableWith x.o ro (.dict .dict keys vals) := fun hro =>
      readable_dict hro.order (fun e he => readable_key hro he) (fun e he => readable_val hro he)
    obtain ⟨oid, ob', rfl, h1, h2, h3, h4, h5, h6⟩ := dictBoth_rt ho hwr hrt hp hf hR hB keys vals plain ts hlen hgv hk h
    refine ⟨oid, rfl, h1, h2, ob', h3, h4, h5, ?_⟩
    intro ro V excl m hro c1 c2 c3
    obtain ⟨d1, d2⟩ := h6 ro V excl m (dr hro) c1 c2 c3
    refine ⟨fin d1, fun w hb => (by cases hb), ?_⟩
    intro plain' k' keys' vals' texts' us e1 e2
    cases e1
    cases e2
    exact d2 texts' us

/-- What a marshaller with the parent `P` has written at `ms`. -/
structure UserAt (x : Ctx) (n : Nat) (h : Heap) (ms : List Str) (P : Parent) (ts : Str) (v : Val) : Prop where
  names : ms.all nameOk = true
  ex : ∃ (q : Nat) (S : Nat → Prop) (ob' : Obj), LPath h ms q ∧ S q ∧ (∀ p, S p → InOrRefs x.o h ms p) ∧ viewOf h q = some ob' ∧
    attrToString (aget ob'.attrs p!"Python.Type") = .ok (some ts) ∧ (∃ mc, attrToString (aget ob'.attrs p!"MATLAB_class") = .ok mc) ∧
    ∀ (ro : COpts) (V : View) (excl : Option Nat) (m : Nat), ReadableWith x.o ro v → (∀ p, S p → V p = viewOf h p) → (∀ r, excl = some r → ¬ S r) → n ≤ m →
      parentRead P (looksMulti V) (readData ro V excl m) ro excl ob' = .ok (handedBack P v) ∧
        (∀ w, Bare P v w → readNp (looksMulti V) (readData ro V excl m) ro excl ob' = .ok w) ∧
            ∀ plain k keys vals texts us, P = .dict plain → v = .dict k keys vals → BareItems x.o keys vals texts us →
              (x.o.matlab && plain && ro.structsAsDicts) = true ∨ (texts ≠ [] ∧ [] ∉ texts) →
              ∃ w, readNp (looksMulti V) (readData ro V excl m) ro excl ob' = .ok w ∧ BareDict (x.o.matlab && plain && ro.structsAsDicts) texts us w

theorem UserAt.away {x : Ctx} {n : Nat} {h h' : Heap} {ms : List Str} {P : Parent} {ts : Str} {v : Val} (hs : UserAt x n h ms P ts v) (a : Away x.o ms h h') :
    UserAt x n h' ms P ts v := by
  obtain ⟨h0, q, S, ob', h1, h2, h3, h4, h5, h6, h7⟩ := hs
  have hv : ∀ p, S p → viewOf h' p = viewOf h p := by
    intro p hp
    unfold viewOf
    rw [a.obj p (h3 p hp)]
  refine ⟨h0, q, S, ob', (a.path q).mpr h1, h2, fun p hp => a.keep (h3 p hp), (hv q h2).trans h4, h5, h6, ?_⟩
  intro ro V excl m hro c1 c2 c3
  exact h7 ro V excl m hro (fun p hp => (c1 p hp).trans (hv p hp)) c2 c3


/-! ### Finding the marshaller -/

theorem writer_of {S : Setup α} {pl : Plugin α} {a : α} {ts : Str} (h : WritesAs S pl a ts) : S.writer a = some pl := by
  obtain ⟨i, t, h1, h2, h3⟩ := h.typed
  have hk : t.key = (S.cls a).key := by rcases h3 with rfl | rfl <;> rfl
  unfold Setup.writer
  cases hf : S.plugins.find? (fun p => p.tables.types.any fun t => t.key == (S.cls a).key) with
  | none =>
    have := List.find?_eq_none.mp hf pl h.mem
    exact absurd (List.any_eq_true.mpr ⟨t, List.mem_of_getElem? h1, by simp [hk]⟩) this
  | some p =>
    have hp := List.find?_some hf
    obtain ⟨t', h4, h5⟩ := List.any_eq_true.mp hp
    rw [h.alone p (List.mem_of_find?_eq_some hf) ⟨t', h4, by simpa using h5⟩]

theorem typeString_of {S : Setup α} {pl : Plugin α} {a : α} {ts : Str} (h : WritesAs S pl a ts) : getTypeString pl.tables (S.cls a) none = .ok ts := by
  obtain ⟨i, t, h1, h2, h3⟩ := h.typed
  have hnd : pl.tables.types.Nodup := List.Pairwise.of_map TypeRef.key (fun _ _ hne he => hne (by rw [he])) h.types
  have hz : ∀ t s, dictAt pl.tables.typeToString t = some s ↔ (t, s) ∈ pl.tables.types.zip pl.tables.typeStrings := fun t s =>
    dictAt_zip _ (by rw [zip_fst_map _ _ h.lengths]; exact hnd) [] t s rfl
  have hm : (t, ts) ∈ pl.tables.types.zip pl.tables.typeStrings := by
    refine List.mem_of_getElem? (i := i) ?_
    rw [List.getElem?_zip_eq_some]
    exact ⟨h1, h2⟩
  have h4 := (hz t ts).mpr hm
  -- a type with the same name is the same entry
  have same : ∀ t' s, t'.key = t.key → dictAt pl.tables.typeToString t' = some s → t' = t := by
    intro t' s hk hd
    have hm' := (List.of_mem_zip ((hz t' s).mp hd)).1
    obtain ⟨j, hj⟩ := List.getElem?_of_mem hm'
    have hij : j = i := by
      refine (List.getElem?_inj (l := pl.tables.types.map TypeRef.key) ?_ h.types).mp ?_
      · rw [List.length_map]; exact (List.getElem?_eq_some_iff.mp hj).1
      · rw [List.getElem?_map, List.getElem?_map, hj, h1]
        simp [hk]
    subst hij
    rw [hj] at h1
    exact Option.some.inj h1
  unfold getTypeString
  dsimp only
  rcases h3 with rfl | rfl
  · rw [h4]
  · cases hd : dictAt pl.tables.typeToString (S.cls a) with
    | none => dsimp only; rw [h4]
    | some s =>
      have he := same (S.cls a) s rfl hd
      rw [he, h4] at hd
      cases hd; rfl

theorem claims_reader {T : Setup α} {pl : Plugin α} {ts : Str} (h : Claims T pl ts) : T.reader ts = some pl := by
  unfold Setup.reader
  rw [if_neg]
  · cases hf : T.plugins.find? (fun p => p.tables.typeStrings.contains ts) with
    | none =>
      have := List.find?_eq_none.mp hf pl h.mem
      exact absurd (List.contains_iff_mem.mpr h.known) this
    | some p =>
      have hp := List.find?_some hf
      rw [h.alone p (List.mem_of_find?_eq_some hf) (List.contains_iff_mem.mp hp)]
  · rintro ⟨h1, h2⟩
    rcases h.foreign with hf | hf
    · rw [hf] at h1; cases h1
    · obtain ⟨b, hb, hc⟩ := List.any_eq_true.mp h2
      exact hf b hb (List.contains_iff_mem.mp hc)

theorem unclaimed_reader {T : Setup α} {ts : Str} (h : Unclaimed T ts) : T.reader ts = none := by
  unfold Setup.reader
  split
  · rfl
  · refine List.find?_eq_none.mpr fun p hp hc => h.plugins p hp (List.contains_iff_mem.mp hc)

/-- No builtin marshaller knows the type string: it is read as an array. -/
theorem readTyped_unknown {ts : Str} (h : ∀ b ∈ builtins, ts ∉ b.typeStrings) (mu : Nat → Bool) (rd : Rd) (o : COpts) (excl : Option Nat) (ob : Obj) :
    readTyped mu rd o excl ob ts = readNp mu rd o excl ob := by
  have hb : ∀ b : Builtin, ts ∉ b.strings := fun b => h b.marshaller (List.mem_map.mpr ⟨b, by cases b <;> decide, rfl⟩)
  have h1 := hb .noneEllipsis
  have h2 := hb .scalar
  have h3 := hb .string
  have h4 := hb .numpyDtype
  have h5 := hb .list
  have h6 := hb .tupleSetDeque
  have h7 := hb .dict
  have h8 := hb .counter
  have h9 := hb .chainMap
  have h10 := hb .fraction
  have h11 := hb .sliceRange
  have h12 := hb .datetimeObjs
  simp only [Builtin.strings, List.mem_cons, List.not_mem_nil, or_false, not_or] at h1 h2 h3 h4 h5 h6 h7 h8 h9 h10 h11 h12
  unfold readTyped
  rw [if_neg h1.1, if_neg h1.2.1, if_neg h1.2.2, if_neg (by simp [h2]), if_neg (by simp [h3]), if_neg h4]
  have k1 : seqKindOf ts = none := by exact aget_none_akeys.mpr (by simp [akeys, h5, h6, h9])
  have k2 : dictKindOf ts = none := by exact aget_none_akeys.mpr (by simp [akeys, h7, h8])
  have k3 : recKindOf ts = none := by exact aget_none_akeys.mpr (by simp [akeys, h10, h11, h12])
  rw [k1, k2, k3]

/-! ### Writing an object -/

theorem userWriteOne_stored {S : Setup α} {x : Ctx} (hR : RtOpts x.o) {n : Nat} {s s' : St} {ob : Option Nat} (hi : Inv x s) (ht : Tree s.heap) {gs t : Str} {a : α}
    {pl : Plugin α} {ts : Str} (ho : OffRefs x.o (commonComps gs ++ [t])) (hfree : ¬ Exists s.heap (commonComps gs ++ [t])) (hr : RandOk x s.rpos s'.rpos)
    (hS : WritesAs S pl a ts) (hv : Payload x.o pl.parent (pl.down a)) (h : userWriteOne S x (n + 1) (gs, t) a s = (.ok ob, s')) :
    UserAt x n s'.heap (commonComps gs ++ [t]) pl.parent ts (pl.down a) := by
  have hN := Spec.RtOpts.names hR
  unfold userWriteOne at h
  dsimp only at h
  rcases bind_run (requireGroup (commonComps gs)) (fun g => userWriteData S x (n + 1) g (absName (commonComps gs)) t a) s with ⟨g, s1, e1, e2⟩ | ⟨e, s1, e1, e2⟩
  · rw [e2] at h
    have r := requireGroup_user hi ht ho e1
    obtain ⟨r1, r2, r3, r4⟩ := r.ok g rfl
    have ht1 := tree_step ht r.step (fun h => h)
    have hp := ho.pre r.step.inv ht1 r1 (isGroup_lt r2)
    have hf : Fresh s1 g t := by
      intro q hl
      rcases r3 with h3 | h3
      · rw [h3] at hl r1
        exact hfree ⟨q, .snoc r1 hl⟩
      · rw [LinkAt, h3] at hl; cases hl
    have hnr := ho.notRefs ht1 r1
    have hb : s1.rpos = s.rpos := r.bk.2.2.2.1
    have po := userWriteData_post hN hp h
    have hcomps : commonComps gs = [] ∨ OffRefs x.o (commonComps gs) := by
      by_cases hc : commonComps gs = []
      · exact Or.inl hc
      · exact Or.inr (ho.prefix (List.prefix_append _ _) hc)
    have hpath := po.step.fr.resolve_user ht1 r1 hcomps not_prefix_snoc
    rw [resolve_lpath (commonComps_plain gs) r1] at hpath
    have hlp : LPath s'.heap (commonComps gs) g := lpath_resolve (commonComps_plain gs) hpath
    simp only [userWriteData, writer_of hS, hS.ready, if_true, typeString_of hS] at h
    have h' : parentWrite x (writeData x n) pl.parent ts g (absName (commonComps gs)) t (pl.down a) s1 = (.ok ob, s') := h
    obtain ⟨q, rfl, c1, c2, ob', c3, c4, c5, c6⟩ := parentWrite_rt hR (B := s'.rpos) hp hf (fun h => absurd h hnr) (by rw [hb]; exact hr) (Nat.le_refl _) hv h'
    refine ⟨?_, q, NewObj x s1 s', ob', .snoc hlp (c2 hnr), c1, fun p hp => newObj_in ht1 r1 po.step.fr ho.refs hp, c3, c4, c5, c6⟩
    simp only [List.all_append, List.all_cons, List.all_nil, Bool.and_true, Bool.and_eq_true]
    exact ⟨r4, parentWrite_nameOk h'⟩
  · rw [e2] at h; cases h

/-- An object just written. -/
theorem wroteUser_stored {S : Setup α} {x : Ctx} (hR : RtOpts x.o) {n : Nat} {F F' : FileS} {p : PathArg} {ns : List Str} {a : α} {pl : Plugin α} {ts : Str}
    (hw : WroteUser S x n F p ns a F') (hS : WritesAs S pl a ts) (hv : Payload x.o pl.parent (pl.down a)) :
    ∃ k, n = k + 1 ∧ OffRefs x.o ns ∧ UserAt x k F'.st.heap ns pl.parent ts (pl.down a) := by
  obtain ⟨hp, hF, hro, ha, hne, hfree, hr, h⟩ := hw
  obtain ⟨hi, ht⟩ := reachUser_keep hp (Spec.RtOpts.names hR) hF
  unfold userWrite at h
  split at h
  · cases h
  cases hc : checkPath x.o.refsPath p with
  | error e => rw [hc] at h; cases h
  | ok gt =>
    obtain ⟨gs, t⟩ := gt
    rw [hc] at h
    dsimp only at h
    split at h
    · cases h
    obtain ⟨c1, c2, c3⟩ := checkPath_off hp hc
    have hd : t ≠ [dot] := by
      intro hd
      exact hne (addr_unique ha (c3 hd))
    obtain ⟨ho, hns⟩ := c2 hd
    have hns' : ns = commonComps gs ++ [t] := addr_unique ha ⟨gs, t, c1, hns.symm⟩
    subst hns'
    rcases bind_run (userWriteOne S x n (gs, t) a) (fun _ => (pure () : M Unit)) F.st with ⟨ob, s1, e1, e2⟩ | ⟨e, s1, e1, e2⟩
    · have e3 : (userWriteOne S x n (gs, t) a >>= fun _ => (pure () : M Unit)) F.st = (.ok (), s1) := e2
      rw [runFile_rw _ hro, e3] at h
      cases h
      cases n with
      | zero =>
        unfold userWriteOne at e1
        rcases bind_run (requireGroup (commonComps gs)) (fun g => userWriteData S x 0 g (absName (commonComps gs)) t a) F.st with ⟨g, s2, f1, f2⟩ | ⟨e, s2, f1, f2⟩
        · have := f2.symm.trans e1
          cases this
        · have := f2.symm.trans e1
          cases this
      | succ k => exact ⟨k, rfl, ho, userWriteOne_stored hR hi ht ho hfree hr hS hv e1⟩
    · have e3 : (userWriteOne S x n (gs, t) a >>= fun _ => (pure () : M Unit)) F.st = (.error e, s1) := e2
      rw [runFile_rw _ hro, e3] at h; cases h

/-- Reading what a marshaller has written: what `userReadData` makes of it. -/
theorem UserAt.readsAs {T : Setup α} {x : Ctx} {n : Nat} {h : Heap} {ms : List Str} {P : Parent} {ts : Str} {v : Val} {R : COpts → Res (UVal α) → Prop} (hs : UserAt x n h ms P ts v)
    (hr : RefsPathOk x.o) (hms : OffRefs x.o ms)
    (hread : ∀ (o : COpts) (V : View) (excl : Option Nat) (m q : Nat) (ob' : Obj) , V q = some ob' → attrToString (aget ob'.attrs p!"Python.Type") = .ok (some ts) →
      (∃ mc, attrToString (aget ob'.attrs p!"MATLAB_class") = .ok mc) → parentRead P (looksMulti V) (readData o V excl m) o excl ob' = .ok (handedBack P v) →
      (∀ w, Bare P v w → readNp (looksMulti V) (readData o V excl m) o excl ob' = .ok w) →
      (∀ plain k keys vals texts us, P = .dict plain → v = .dict k keys vals → BareItems x.o keys vals texts us →
        (x.o.matlab && plain && o.structsAsDicts) = true ∨ (texts ≠ [] ∧ [] ∉ texts) →
        ∃ w, readNp (looksMulti V) (readData o V excl m) o excl ob' = .ok w ∧ BareDict (x.o.matlab && plain && o.structsAsDicts) texts us w) →
      R o (userReadData T o V excl (m + 1) q)) :
    ReadsUserAs T x (n + 1) h ms v R := by
  obtain ⟨h0, q, W, ob', h1, h2, h3, h4, h5, h6, h7⟩ := hs
  intro y G p m hy hyr hG hh ha hm
  rcases snoc_cases ms with rfl | ⟨l, t, rfl⟩
  · exact absurd rfl hms.ne
  obtain ⟨gs, c1, rfl⟩ := addr_check hr hms ha
  obtain ⟨g, k1, k2⟩ := lpath_snoc h1
  simp only [List.all_append, List.all_cons, List.all_nil, Bool.and_true, Bool.and_eq_true] at h0
  cases m with
  | zero => omega
  | succ m =>
    unfold userRead
    rw [hy, c1]
    dsimp only
    rw [hG, hh, if_neg (by decide)]
    unfold userReadOne
    dsimp only
    rw [if_pos h0.1, resolve_lpath (commonComps_plain gs) k1]
    dsimp only
    rw [if_pos (linkAt_group k2), if_pos h0.2, hlook_plain _ _ _ (hms.plain t (by simp)), k2]
    dsimp only
    have := h7 y.o (viewOf h) (exclOf y.o h) m hyr (fun _ _ => rfl) (by
      intro r he hS
      rw [exclOf, hy] at he
      rcases (h3 r hS).2 _ (lpath_resolve (plainComps x) he) with h | h
      · exact hms.head (head_prefix h hms.ne)
      · exact h.2 (List.prefix_refl _)) (by omega)
    exact hread _ _ _ m q ob' h4 h5 h6 this.1 this.2.1 this.2.2

theorem UserAt.reads {T : Setup α} {x : Ctx} {n : Nat} {h : Heap} {ms : List Str} {P : Parent} {ts : Str} {v : Val} {r : Res (UVal α)} (hs : UserAt x n h ms P ts v)
    (hr : RefsPathOk x.o) (hms : OffRefs x.o ms)
    (hread : ∀ (o : COpts) (V : View) (excl : Option Nat) (m q : Nat) (ob' : Obj) , V q = some ob' → attrToString (aget ob'.attrs p!"Python.Type") = .ok (some ts) →
      (∃ mc, attrToString (aget ob'.attrs p!"MATLAB_class") = .ok mc) → parentRead P (looksMulti V) (readData o V excl m) o excl ob' = .ok (handedBack P v) →
      (∀ w, Bare P v w → readNp (looksMulti V) (readData o V excl m) o excl ob' = .ok w) → userReadData T o V excl (m + 1) q = r) :
    ReadsUser T x (n + 1) h ms v r :=
  hs.readsAs (R := fun _ w => w = r) hr hms fun o V excl m q ob' h1 h2 h3 h4 h5 _ => hread o V excl m q ob' h1 h2 h3 h4 h5

end HS
