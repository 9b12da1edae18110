import Verif.Lemmas.RtLeaf
import Verif.Lemmas.Dec
import Verif.Props.Strings
/-
Round trip of values written as one Dataset without references.
-/
namespace HS
open Spec

theorem strStep_dt {o : COpts} {sc : Bool} {a d : Arr} (h : strStep o sc a = .ok d) : d.dt = a.dt ∨ d.dt = .u16 ∨ d.dt = .u32 := by
  have h32 : ∀ b : Arr, (convertNumpyStrToUint32 b).dt = .u32 := by
    intro b; unfold convertNumpyStrToUint32; split <;> rfl
  unfold strStep at h
  split at h
  · split at h
    · cases h; exact Or.inr (Or.inr (h32 _))
    · rename_i b hb
      have hb16 : b.dt = .u16 := by
        split at hb
        · cases hc : convertNumpyStrToUint16 a with
          | error e => rw [hc] at hb; cases hb
          | ok b' =>
            rw [hc] at hb; cases hb
            unfold convertNumpyStrToUint16 at hc
            split at hc
            · cases hc; rfl
            · obtain ⟨e, _, hc⟩ := res_bind_ok.mp hc
              cases hc; rfl
        · cases hb
      split at h
      · cases h
        split
        · exact Or.inr (Or.inr (h32 _))
        · exact Or.inr (Or.inl hb16)
      · split at h
        · cases h
        · cases h
          split
          · exact Or.inr (Or.inr (h32 _))
          · exact Or.inr (Or.inl hb16)
  · cases h; exact Or.inl rfl

/-- Data that does not consist of references is not stored as references. -/
theorem prepare_not_ref {o : COpts} {c : Cont} {a d : Arr} (hp : a.dt ≠ .ref) (h : prepare o c a = .ok d) : (h5Store d).dt ≠ .ref := by
  unfold prepare at h
  obtain ⟨d1, h1, h⟩ := res_bind_ok.mp h
  have hb : (bytesStep o a).dt ≠ .ref := by
    unfold bytesStep
    split
    · split
      · split
        · simp [npZeros]
        · dsimp only
          split
          · simp
          · exact hp
      · exact hp
    · exact hp
  have hd1 : d1.dt ≠ .ref := by
    rcases strStep_dt h1 with h | h | h
    · rw [h]; exact hb
    · rw [h]; simp
    · rw [h]; simp
  have h2 : (atleast2dStep o d1).dt ≠ .ref := by
    unfold atleast2dStep; split <;> exact hd1
  have h3 : (boolStep o (reverseStep o (atleast2dStep o d1))).dt ≠ .ref := by
    have h2' : (reverseStep o (atleast2dStep o d1)).dt ≠ .ref := by
      unfold reverseStep
      split <;> exact h2
    generalize reverseStep o (atleast2dStep o d1) = e at h2'
    unfold boolStep
    split
    · intro h; cases h
    · exact h2'
  dsimp only at h
  have h4 : d.dt ≠ .ref := by
    generalize hr : (if (o.storeShape && a.isEmpty) = true then _ else _) = r at h
    have hrd : r.dt ≠ .ref := by
      rw [← hr]
      split
      · simp [shapeArr]
      · exact h3
    have henc : ∀ d', encodeComplex r o.complexNames = .ok d' → d'.dt ≠ .ref := by
      intro d' h
      unfold encodeComplex at h
      dsimp only at h
      split at h
      · cases h
      · split at h <;> cases h <;> intro hh <;> cases hh
    unfold complexStep at h
    split at h
    · exact henc _ h
    · exact henc _ h
    · cases h; exact hrd
  unfold h5Store
  split
  · unfold h5Read
    split
    · split
      · dsimp only; split <;> intro hh <;> cases hh
      · exact h4
    · exact h4
  · intro hh; cases hh
  · intro hh; cases hh
  · exact h4

/-- A dtype that is not that of a compound Dataset for structured data. -/
def NC (d : DT) : Prop := ∀ o s n t, d ≠ .comp o s n t

/-- Data that is not structured is not stored in a compound Dataset. -/
theorem prepare_not_comp {o : COpts} {c : Cont} {a d : Arr} (hp : NC a.dt) (h : prepare o c a = .ok d) : NC (h5Store d).dt := by
  unfold prepare at h
  obtain ⟨d1, h1, h⟩ := res_bind_ok.mp h
  have hb : NC (bytesStep o a).dt := by
    unfold bytesStep
    split
    · split
      · split
        · simp [npZeros, NC]
        · dsimp only
          split
          · simp [NC]
          · exact hp
      · exact hp
    · exact hp
  have hd1 : NC d1.dt := by
    rcases strStep_dt h1 with h | h | h
    · rw [h]; exact hb
    · rw [h]; simp [NC]
    · rw [h]; simp [NC]
  have h2 : NC (atleast2dStep o d1).dt := by
    unfold atleast2dStep; split <;> exact hd1
  have h3 : NC (boolStep o (reverseStep o (atleast2dStep o d1))).dt := by
    have h2' : NC (reverseStep o (atleast2dStep o d1)).dt := by
      unfold reverseStep
      split <;> exact h2
    generalize reverseStep o (atleast2dStep o d1) = e at h2'
    unfold boolStep
    split
    · simp [NC]
    · exact h2'
  dsimp only at h
  have h4 : NC d.dt := by
    generalize hr : (if (o.storeShape && a.isEmpty) = true then _ else _) = r at h
    have hrd : NC r.dt := by
      rw [← hr]
      split
      · simp [shapeArr, NC]
      · exact h3
    have henc : ∀ d', encodeComplex r o.complexNames = .ok d' → NC d'.dt := by
      intro d' h
      unfold encodeComplex at h
      dsimp only at h
      split at h
      · cases h
      · split at h <;> cases h <;> simp [NC]
    unfold complexStep at h
    split at h
    · exact henc _ h
    · exact henc _ h
    · cases h; exact hrd
  unfold h5Store
  split
  · unfold h5Read
    split
    · split
      · dsimp only; split <;> simp [NC]
      · exact h4
    · exact h4
  · simp [NC]
  · rename_i hh; exact absurd hh (h4 _ _ _ _)
  · exact h4

/-- Reading a Dataset that holds neither references nor structured data. -/
theorem readDset_arr {rd : Rd} {a : Arr} (h1 : a.dt ≠ .ref) (h2 : ∀ o s n t, a.dt ≠ .comp o s n t) : readDset rd a = .ok (.arr false a) := by
  unfold readDset
  rw [if_neg h1]
  split
  · rename_i h; exact absurd h (h2 _ _ _ _)
  · rfl

/-- Writing numpy data to an unused place. -/
theorem writeNp_fresh {x : Ctx} (ho : OptsOk x.o) (hm : x.o.pyMeta = true) {s s' : St} {ob : Option Nat} {g : Nat} {name : Str} (hp : Pre x s g name)
    (hf : Fresh s g name) {c : Cont} {a : Arr} {ts : Str} (hg : GoodNp c a) (hrec : c = .recarray → ts = p!"numpy.recarray") (hdrop : NotDropped x.o a.dt) (hcn : CplxOk x.o a)
    (h : writeNp x g name c a ts s = (.ok ob, s')) : ∃ oid, ob = some oid ∧ NewObj x s s' oid ∧ LinkAt s'.heap g name oid ∧
      ∃ ob', viewOf s'.heap oid = some ob' ∧ attrToString (aget ob'.attrs p!"Python.Type") = .ok (some ts) ∧
        (∃ mc, attrToString (aget ob'.attrs p!"MATLAB_class") = .ok mc) ∧ ∀ (ro : COpts) mu rd excl, (ro.reverse = x.o.reverse ∨ (x.o.matlab = true ∧ x.o.action ≠ .ignore)) → readNp mu rd ro excl ob' = .ok (.np c a) := by
  have po := writeNp_post hp c a ts h
  unfold writeNp at h
  split at h
  · cases h
  · rename_i g1
    split at h
    · rename_i hd
      refine absurd ?_ (hdrop hd.1 hd.2.2)
      have h2 := hd.2.1
      have hpl := hg.arr.plain
      revert h2
      cases hdt : a.dt with
      | f16 => intro _; rfl
      | crec r i dd => exact absurd hdt (hpl.2.2.1 r i dd)
      | comp oo sz nn tt => exact absurd hdt (hpl.2.2.2 oo sz nn tt)
      | _ => simp [DT.matlabClass]
    · rename_i g2
      cases hd : prepare x.o c a with
      | error e => rw [hd] at h; cases h
      | ok d =>
        rw [hd] at h
        obtain ⟨h1, h2, h3, _, attrs, h4, h5⟩ := putAttrs_fresh hp hf d (filtersFor x.o d) _ h
        subst h1
        have t := po.ok _ rfl
        refine ⟨_, rfl, ⟨Nat.le_refl _, t.lt, t.off⟩, h3, _, by unfold viewOf; rw [h5]; rfl, ?_⟩
        refine ⟨(readNp_fresh hm h4 _ _ x.o (fun _ => false) (fun _ => .error .other) none).1, ⟨_, (readNp_fresh hm h4 _ _ x.o (fun _ => false) (fun _ => .error .other) none).2.1⟩, ?_⟩
        intro ro mu rd excl hro
        rw [(readNp_fresh hm h4 _ _ ro mu rd excl).2.2]
        rw [readDset_arr (prepare_not_ref hg.arr.plain.2.1 hd) (prepare_not_comp hg.arr.plain.2.2.2 hd)]
        show npFinish ro ts a.dt.name a.shape (some c.name) a.isEmpty (mcOf x.o a.dt) _ = _
        rw [npFinish_opts (o := x.o)]
        · exact leaf_roundtrip x.o ho c a d ts hg hcn hrec hd
        · rcases hro with hro | ⟨hma, hac⟩
          · exact Or.inr hro
          · refine Or.inl ?_
            unfold mcOf
            rw [if_pos hma]
            cases hcl : a.dt.matlabClass with
            | some _ => rfl
            | none =>
              exfalso
              cases hact : x.o.action with
              | error => exact g1 ⟨hma, hcl, hact⟩
              | discard => exact g2 ⟨hma, hcl, hact⟩
              | ignore => exact hac hact

/-- Combining with the reader. -/
theorem rt_leaf {x : Ctx} {s s' : St} {g oid : Nat} {name ts : Str} {v w : Val} (hn : NewObj x s s' oid) (hl : LinkAt s'.heap g name oid)
    {ob' : Obj} (hv : viewOf s'.heap oid = some ob') (hts : attrToString (aget ob'.attrs p!"Python.Type") = .ok (some ts))
    (hmc : ∃ mc, attrToString (aget ob'.attrs p!"MATLAB_class") = .ok mc) (hr : ∀ (ro : COpts) mu rd excl, (ro.reverse = x.o.reverse ∨ (x.o.matlab = true ∧ x.o.action ≠ .ignore)) → readNp mu rd ro excl ob' = .ok w)
    (hd : ∀ (ro : COpts) (V : View) (excl : Option Nat) (m : Nat), V oid = some ob' → readNp (looksMulti V) (readData ro V excl m) ro excl ob' = .ok w →
      attrToString (aget ob'.attrs p!"Python.Type") = .ok (some ts) → (∃ mc, attrToString (aget ob'.attrs p!"MATLAB_class") = .ok mc) →
      readData ro V excl (m + 1) oid = .ok v) (n : Nat) : RTOut x (n + 1) s s' g name v oid where
  new := hn
  link := fun _ => hl
  typed := ts_typed hv hts
  reads := by
    intro ro V excl m hro h1 h2 h3
    obtain ⟨m', rfl⟩ : ∃ m', m = m' + 1 := ⟨m - 1, by omega⟩
    exact hd ro V excl m' ((h1 oid hn).trans hv) (hr _ _ _ _ hro.order) hts hmc

/-- The reader on an object with a type string. -/
theorem readData_ts {o : COpts} {V : View} {excl : Option Nat} {m oid : Nat} {ob : Obj} {ts : Str} (hV : V oid = some ob)
    (hts : attrToString (aget ob.attrs p!"Python.Type") = .ok (some ts)) (hmc : ∃ mc, attrToString (aget ob.attrs p!"MATLAB_class") = .ok mc) :
    readData o V excl (m + 1) oid = readTyped (looksMulti V) (readData o V excl m) o excl ob ts := by
  obtain ⟨mc, hmc⟩ := hmc
  rw [readData]
  dsimp only
  rw [hV]
  dsimp only
  rw [hts, hmc]
  rfl

/-- The UTF-8 encoding ends with a NUL only if the text does. -/
theorem utf8Enc_last (s : Str) (b : Bytes) (h : utf8Enc s = .ok b) (hl : s.getLast? ≠ some 0) : b.getLast? ≠ some 0 := by
  induction s generalizing b with
  | nil => cases h; simp
  | cons c r ih =>
    rw [utf8Enc] at h
    cases hc : utf8EncChar c with
    | none => rw [hc] at h; cases h
    | some bc =>
      rw [hc] at h
      obtain ⟨rb, hr, h⟩ := res_bind_ok.mp h
      cases h
      cases r with
      | cons d r' =>
        have := ih rb hr (by simpa [List.getLast?_cons_cons] using hl)
        rw [List.getLast?_append]
        cases hrb : rb.getLast? with
        | some z => rw [hrb] at this; simpa using this
        | none =>
          have : rb = [] := by simpa using hrb
          subst this
          -- the encoding of something is not empty
          rw [utf8Enc] at hr
          cases hd : utf8EncChar d with
          | none => rw [hd] at hr; cases hr
          | some bd =>
            rw [hd] at hr
            obtain ⟨q, _, hr⟩ := res_bind_ok.mp hr
            simp only [Except.ok.injEq] at hr
            have : bd = [] := (List.append_eq_nil_iff.mp hr).1
            subst this
            unfold utf8EncChar at hd
            repeat' split at hd
            all_goals first
              | cases hd
              | simp at hd
      | nil =>
        cases hr
        have h0 : c ≠ 0 := by simpa using hl
        unfold utf8EncChar at hc
        repeat' split at hc
        all_goals first
          | (simp only [Option.some.injEq] at hc; subst hc; simp only [List.append_nil, List.getLast?_cons_cons, List.getLast?_singleton, ne_eq, Option.some.injEq]; omega)
          | cases hc

theorem goodNp_npStr (s : Str) (h : Storable s) : GoodNp .scalar (npStr s) where
  arr := ⟨rfl, by simp [npStr, FitsDT], by simp [npStr]⟩
  scalar := fun _ => ⟨rfl, by
    intro u hu
    simp only [npStr, List.mem_singleton, El.units.injEq] at hu
    subst hu
    intro h0
    exact absurd (h.2 0 h0) (by simp)⟩
  matrix := by intro h; cases h
  chararray := by intro h; cases h
  width := by intro h; exact absurd rfl h
  strs := by
    intro n hn _
    simp only [npStr, DT.str.injEq] at hn
    subst hn
    exact ⟨[s], ⟨rfl, rfl, by simp [npStr], by simp⟩, by simpa using h, .inr ⟨s, by simp, rfl⟩⟩

theorem goodNp_npBytes (b : Bytes) (h : GoodBytes b) : GoodNp .scalar (npBytes b) := by
  rw [npBytes_self]
  exact {
    arr := ⟨rfl, by simp [FitsDT], by simp⟩
    scalar := fun _ => ⟨rfl, by
      intro u hu
      simp only [List.mem_singleton, El.units.injEq] at hu
      subst hu
      exact h⟩
    matrix := by intro h; cases h
    chararray := by intro h; cases h
    width := by intro h; exact absurd rfl h
    strs := by intro n hn; cases hn }

/-- A number as a scalar. -/
theorem goodNp_scalar (dt : DT) (e : El) (hf : FitsDT dt e) (hs : dt.isString = false) (hp : dt ≠ .object ∧ dt ≠ .ref ∧ (∀ r i d, dt ≠ .crec r i d) ∧ ∀ o s n t, dt ≠ .comp o s n t) :
    GoodNp .scalar ⟨dt, [], [e]⟩ where
  arr := ⟨rfl, by simpa using hf, hp⟩
  scalar := fun _ => ⟨rfl, by
    intro u hu
    simp only [List.mem_singleton] at hu
    subst hu
    cases dt <;> first | exact hf.elim | cases hs⟩
  matrix := by intro h; cases h
  chararray := by intro h; cases h
  width := by intro h; exact absurd rfl h
  strs := by intro n hn; dsimp only at hn; subst hn; cases hs

theorem intDec_good (v : Int) : GoodBytes (intDec v) := by
  have key : ∀ n, (decDigits n).getLast? ≠ some 0 := by
    intro n h
    have := decDigits_range n 0 (List.mem_of_getLast? h)
    omega
  unfold GoodBytes intDec
  split
  · have := decDigits_ne_nil v.natAbs
    cases hd : decDigits v.natAbs with
    | nil => exact absurd hd this
    | cons a r => rw [List.getLast?_cons_cons, ← hd]; exact key _
  · exact key _

/-- How the values written as one Dataset are written and read. -/
theorem leafOf_good {o : COpts} {v : Val} (hg : Good o v) {c : Cont} {a : Arr} (h : leafOf v = some (c, a)) :
    GoodNp c a ∧ (c = .recarray → tsOf v = p!"numpy.recarray") ∧ NotDropped o a.dt ∧ CplxOk o a ∧
      ∀ mu rd o' excl ob, readNp mu rd o' excl ob = .ok (.np c a) → readTyped mu rd o' excl ob (tsOf v) = .ok v := by
  have empty : GoodNp .ndarray (npZeros .f64 [0]) := {
    arr := ⟨rfl, by simp [npZeros, prodN], by simp [npZeros]⟩
    scalar := by intro h; cases h
    matrix := by intro h; cases h
    chararray := by intro h; cases h
    width := fun _ => ⟨by simp [npZeros], by simp [npZeros]⟩
    strs := by intro n hn; cases hn }
  cases hg with
  | none => cases h; exact ⟨empty, (by intro h; cases h), (by intro _ _ h; cases h), (by rintro (h | h) <;> cases h), fun _ _ _ _ _ _ => rfl⟩
  | ellipsis => cases h; exact ⟨empty, (by intro h; cases h), (by intro _ _ h; cases h), (by rintro (h | h) <;> cases h), fun _ _ _ _ _ _ => rfl⟩
  | notImplemented => cases h; exact ⟨empty, (by intro h; cases h), (by intro _ _ h; cases h), (by rintro (h | h) <;> cases h), fun _ _ _ _ _ _ => rfl⟩
  | bool b =>
    cases h
    refine ⟨goodNp_scalar _ _ (by cases b <;> simp [FitsDT]) rfl (by simp), (by intro h; cases h), (by intro _ _ h; cases h), (by rintro (h | h) <;> cases h), ?_⟩
    intro mu rd o' excl ob h
    show (readNp mu rd o' excl ob >>= fun w => toScalar p!"bool" w) = _
    rw [h]
    cases b <;> rfl
  | int i =>
    rw [leafOf] at h
    by_cases hr : -9223372036854775808 ≤ i ∧ i ≤ 9223372036854775807
    · rw [if_pos hr] at h
      cases h
      refine ⟨goodNp_scalar _ _ (by simp [FitsDT]) rfl (by simp), (by intro h; cases h), (by intro _ _ h; cases h), (by rintro (h | h) <;> cases h), ?_⟩
      intro mu rd o' excl ob h
      show (readNp mu rd o' excl ob >>= fun w => toScalar p!"long" w) = _
      rw [h]
      rfl
    · rw [if_neg hr] at h
      cases h
      refine ⟨goodNp_npBytes _ (intDec_good i), (by intro h; cases h), (by intro _ _ h; cases h), (by rintro (h | h) <;> cases h), ?_⟩
      intro mu rd o' excl ob h
      show (readNp mu rd o' excl ob >>= fun w => toScalar p!"long" w) = _
      rw [h, npBytes_self]
      show (intOfDec (stripNul (intDec i)) >>= fun z => Except.ok (Val.int z)) = _
      rw [stripNul_self _ (intDec_good i), intOfDec_intDec]
      rfl
  | float b =>
    cases h
    refine ⟨goodNp_scalar _ _ (by simp [FitsDT]) rfl (by simp), (by intro h; cases h), (by intro _ _ h; cases h), (by rintro (h | h) <;> cases h), ?_⟩
    intro mu rd o' excl ob h
    show (readNp mu rd o' excl ob >>= fun w => toScalar p!"float" w) = _
    rw [h]
    rfl
  | complex r i hcn =>
    cases h
    refine ⟨goodNp_scalar _ _ (by simp [FitsDT]) rfl (by simp), (by intro h; cases h), (by intro _ _ h; cases h), fun _ _ => hcn, ?_⟩
    intro mu rd o' excl ob h
    show (readNp mu rd o' excl ob >>= fun w => toScalar p!"complex" w) = _
    rw [h]
    rfl
  | str s hs =>
    cases h
    refine ⟨goodNp_npStr s hs.1, (by intro h; cases h), (by intro _ _ h; cases h), (by rintro (h | h) <;> cases h), ?_⟩
    intro mu rd o' excl ob h
    show (readNp mu rd o' excl ob >>= fun w => toPyString p!"str" w) = _
    rw [h]
    show (convertToStr (.np true (npStr s)) >>= fun t => Except.ok (Val.str t)) = _
    rw [(C20_utf16_utf32_partial s hs.1.1 hs.2 []).2.2]
    rfl
  | bytes b hb =>
    cases h
    refine ⟨goodNp_npBytes b hb, (by intro h; cases h), (by intro _ _ h; cases h), (by rintro (h | h) <;> cases h), ?_⟩
    intro mu rd o' excl ob h
    show (readNp mu rd o' excl ob >>= fun w => toPyString p!"bytes" w) = _
    rw [h, npBytes_self]
    show Except.ok (Val.bytes (b ++ [])) = _
    rw [List.append_nil]
  | bytearray b hb =>
    cases h
    refine ⟨goodNp_npBytes b hb, (by intro h; cases h), (by intro _ _ h; cases h), (by rintro (h | h) <;> cases h), ?_⟩
    intro mu rd o' excl ob h
    show (readNp mu rd o' excl ob >>= fun w => toPyString p!"bytearray" w) = _
    rw [h, npBytes_self]
    show Except.ok (Val.bytearray (b ++ [])) = _
    rw [List.append_nil]
  | np c' a' hn hd hcn =>
    cases h
    refine ⟨hn, by rintro rfl; rfl, hd, hcn, ?_⟩
    intro mu rd o' excl ob h
    rw [← h]
    show readTyped mu rd o' excl ob (npTypeString c a.dt) = _
    generalize a.dt = dt
    cases c <;> cases dt <;> rfl
  | dtypeObj s hs hl =>
    rw [leafOf] at h
    cases he : utf8Enc s with
    | error e => rw [he] at h; cases h
    | ok b =>
      rw [he] at h
      cases h
      refine ⟨goodNp_npBytes b (utf8Enc_last s b he hl), (by intro h; cases h), (by intro _ _ h; cases h), (by rintro (h | h) <;> cases h), ?_⟩
      intro mu rd o' excl ob h
      show (readNp mu rd o' excl ob >>= fun w => match w with
        | .np c a => convertToStr (.np (c == .scalar) a) >>= fun t => Except.ok (Val.dtypeObj t)
        | _ => .error .typeError) = _
      rw [h]
      show (convertToStr (.np true (npBytes b)) >>= fun t => Except.ok (Val.dtypeObj t)) = _
      rw [(C20_utf8 s b he []).2.2.1]
      rfl
  | _ => cases h

/-- Values written as one Dataset. -/
theorem leaf_rt {x : Ctx} (ho : OptsOk x.o) (hm : x.o.pyMeta = true) {s s' : St} {ob : Option Nat} {g : Nat} {name : Str} (hp : Pre x s g name)
    (hf : Fresh s g name) {v : Val} (hg : Good x.o v) {c : Cont} {a : Arr} (hl : leafOf v = some (c, a))
    (h : writeNp x g name c a (tsOf v) s = (.ok ob, s')) (n : Nat) : ∃ oid, ob = some oid ∧ RTOut x (n + 1) s s' g name v oid := by
  obtain ⟨h1, h2, h3, h5, h4⟩ := leafOf_good hg hl
  obtain ⟨oid, rfl, e1, e2, ob', e3, e4, e5, e6⟩ := writeNp_fresh ho hm hp hf h1 h2 h3 h5 h
  refine ⟨oid, rfl, rt_leaf e1 e2 e3 e4 e5 e6 ?_ n⟩
  intro ro V excl m hV hr hts hmc
  rw [readData_ts hV hts hmc]
  exact h4 _ _ _ _ _ hr

end HS
