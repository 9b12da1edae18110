import Verif.Lemmas.ProgressRefs
import Verif.Lemmas.Dec
import Verif.Lemmas.RtStruct
/-
Writing succeeds: the writers.
-/
namespace HS
open Spec

variable {K : Nat → Prop}

theorem ascii_append {a b : Str} (ha : Ascii a) (hb : Ascii b) : Ascii (a ++ b) := fun c hc => (List.mem_append.mp hc).elim (ha c) (hb c)

theorem ascii_all {s : Str} (h : s.all (· < 128) = true) : Ascii s := fun c hc => by simpa using List.all_eq_true.mp h c hc

theorem ascii_dec (n : Nat) : Ascii (decDigits n) := fun c hc => by have := decDigits_range n c hc; omega

theorem ascii_dtName (dt : DT) : Ascii dt.name := by
  unfold DT.name
  split <;> first | exact ascii_append (ascii_all (by rfl)) (ascii_dec _) | exact ascii_all (by rfl)

theorem ascii_contName (c : Cont) : Ascii c.name := by cases c <;> exact ascii_all (by rfl)

theorem ascii_structName (c : Cont) (types : List FT) : Ascii (structName c types) := by
  unfold structName
  refine ascii_append ?_ ?_
  · split <;> exact ascii_all (by rfl)
  · split
    · exact ascii_all (by rfl)
    · exact ascii_dec _

theorem ascii_matlabClass {dt : DT} {cl : Str} (h : dt.matlabClass = some cl) : Ascii cl := by
  cases dt <;> cases h <;> exact ascii_all (by rfl)

theorem ascii_npTs (c : Cont) (dt : DT) : Ascii (npTypeString c dt) := by
  cases c <;> first | exact ascii_all (by rfl) | (cases dt <;> exact ascii_all (by rfl))

theorem ascii_tsOf (v : Val) : Ascii (tsOf v) := by
  cases v with
  | np c a => exact ascii_npTs c a.dt
  | npObj c sh e => exact ascii_npTs c .object
  | seq k e => cases k <;> exact ascii_all (by rfl)
  | dict k e => cases k <;> exact ascii_all (by rfl)
  | record k e => cases k <;> exact ascii_all (by rfl)
  | npStruct c => cases c <;> exact ascii_all (by rfl)
  | _ => exact ascii_all (by rfl)

theorem nameOk_iff {s : Str} : nameOk s = true ↔ Scalars s := by
  unfold nameOk
  rw [List.all_eq_true]
  exact ⟨fun h c hc => (isScalar_iff c).mp (h c hc), fun h c hc => (isScalar_iff c).mpr (h c hc)⟩

theorem ascii_scalars {s : Str} (h : Ascii s) : Scalars s := fun c hc => by have := h c hc; omega

theorem string_ok {s : Str} (h : Ascii s) : ∃ v, (AIn.string s).stored = .ok v := ⟨.bytes s, by rw [AIn.stored, asciiEnc_ok h]; rfl⟩

theorem value_ok (v : AVal) : ∃ w, (AIn.value v).stored = .ok w := ⟨v, rfl⟩

theorem strings_ok {l : List Str} (h : ∀ s ∈ l, Scalars s) : ∃ w, (AIn.stringArray l).stored = .ok w := by
  refine ⟨.strs l, ?_⟩
  rw [AIn.stored, if_pos]
  rw [List.all_eq_true]
  exact fun s hs => nameOk_iff.mpr (h s hs)

theorem AttrsOk.append {a b : List (Str × AIn)} (ha : AttrsOk a) (hb : AttrsOk b) : AttrsOk (a ++ b) := fun e he => (List.mem_append.mp he).elim (ha e) (hb e)

theorem AttrsOk.nil : AttrsOk [] := fun e he => by cases he

theorem AttrsOk.cons {k : Str} {i : AIn} {l : List (Str × AIn)} (h1 : ∃ v, i.stored = .ok v) (h2 : k ≠ p!"MATLAB_class") (hl : AttrsOk l) : AttrsOk ((k, i) :: l) := by
  intro e he
  rcases List.mem_cons.mp he with rfl | he
  · exact ⟨h1, fun h => absurd h h2⟩
  · exact hl e he

theorem AttrsOk.cls {s : Str} {l : List (Str × AIn)} (h1 : Ascii s) (hl : AttrsOk l) : AttrsOk ((p!"MATLAB_class", .string s) :: l) := by
  intro e he
  rcases List.mem_cons.mp he with rfl | he
  · exact ⟨string_ok h1, fun _ => Or.inl ⟨s, rfl⟩⟩
  · exact hl e he

theorem AttrsOk.ite {c : Bool} {a : List (Str × AIn)} (ha : AttrsOk a) : AttrsOk (if c then a else []) := by
  split
  · exact ha
  · exact .nil

theorem npAttrs_ok (o : COpts) (c : Cont) (dt : DT) (shape : List Nat) (empty : Bool) (stored : DT) {ts : Str} (hts : Ascii ts) :
    AttrsOk (npAttrs o c dt shape empty stored ts) := by
  unfold npAttrs
  refine .append (.append (.append (.append (.ite ?_) (.ite ?_)) (.ite ?_)) ?_) (.ite ?_)
  · exact .cons (value_ok _) (by decide) (.cons (string_ok (ascii_dtName dt)) (by decide) (.cons (string_ok (ascii_contName c)) (by decide) .nil))
  · exact .cons (value_ok _) (by decide) .nil
  · exact .cons (value_ok _) (by decide) .nil
  · split
    · split
      · rename_i cl hcl
        refine .cls (ascii_matlabClass hcl) (.ite (.cons ?_ (by decide) .nil))
        split
        · exact ⟨_, rfl⟩
        · exact value_ok _
      · exact .nil
    · exact .nil
  · exact .cons (string_ok hts) (by decide) .nil

theorem dictAttrs_ok (o : COpts) (info : Option (List (Str × Nat))) (struct : Bool) {ts : Str} (hts : Ascii ts) (hn : info = none → Scalars o.keysName ∧ Scalars o.valuesName)
    (hs : ∀ l, info = some l → (∀ i ∈ l, Scalars i.1) ∧ ∀ i ∈ l, i.2 < 128) : AttrsOk (dictAttrs o info struct ts) := by
  unfold dictAttrs
  refine .append (.append (.append (.ite ?_) ?_) (.ite ?_)) (.ite ?_)
  · cases info with
    | none =>
      refine .cons (string_ok (ascii_all (by rfl))) (by decide) (.cons (strings_ok ?_) (by decide) .nil)
      intro s hs'
      simp only [List.mem_cons, List.not_mem_nil, or_false] at hs'
      rcases hs' with rfl | rfl
      · exact (hn rfl).1
      · exact (hn rfl).2
    | some l =>
      obtain ⟨h1, h2⟩ := hs l rfl
      refine .cons (string_ok (ascii_all (by rfl))) (by decide) (.cons (strings_ok ?_) (by decide) (.cons (string_ok ?_) (by decide) .nil))
      · intro s hs'
        obtain ⟨i, hi, rfl⟩ := List.mem_map.mp hs'
        exact h1 i hi
      · intro c hc
        obtain ⟨i, hi, rfl⟩ := List.mem_map.mp hc
        exact h2 i hi
  · cases info with
    | none => exact .nil
    | some l => exact .ite (.cons (value_ok _) (by decide) .nil)
  · exact .cls (ascii_all (by rfl)) .nil
  · exact .cons (string_ok hts) (by decide) .nil

theorem structAttrs_ok (o : COpts) (c : Cont) (types : List FT) (shape : List Nat) (group : Bool) {esc : List Str} {ts : Str} (hts : Ascii ts) (he : ∀ e ∈ esc, Scalars e) :
    AttrsOk (structAttrs o c types shape group esc ts) := by
  unfold structAttrs
  refine .append (.append (.append (.append (.append (.ite ?_) (.ite ?_)) (.ite ?_)) (.ite ?_)) (.ite ?_)) (.ite ?_)
  · exact .cons (value_ok _) (by decide) (.cons (string_ok (ascii_structName c types)) (by decide) (.cons (string_ok (ascii_contName c)) (by decide)
      (.cons (strings_ok he) (by decide) .nil)))
  · exact .cons (value_ok _) (by decide) .nil
  · exact .cons (value_ok _) (by decide) .nil
  · exact .cons (value_ok _) (by decide) .nil
  · split
    · exact .cls (ascii_all (by rfl)) .nil
    · refine .ite ?_
      intro e he'
      rcases List.mem_cons.mp he' with rfl | he'
      · exact ⟨value_ok _, fun _ => Or.inr ⟨_, rfl⟩⟩
      · cases he'
  · exact .cons (string_ok hts) (by decide) .nil

theorem filters_over {o : COpts} (h : CanOverwrite o) (a : Arr) : (filtersFor o a).opts ≠ none := by
  unfold filtersFor
  split
  · rename_i hc
    rw [h hc.2.1]
    simp
  · simp

/-- Writing a Dataset with attributes succeeds. -/
theorem putAttrs_go {x : Ctx} {s : St} {g : Nat} {name : Str} {a : Arr} {at' : List (Str × AIn)} (ho : CanOverwrite x.o) (hs : Go K x s) (hp : PlaceOk x s g name)
    (hat : AttrsOk at') : ∃ p s1, (putDataset g name a (filtersFor x.o a) >>= fun p => setAttrsM p at' true >>= fun _ => (pure (some p) : M (Option Nat))) s = (.ok p, s1) ∧ Go K x s1 := by
  obtain ⟨p, s1, h1, h2⟩ := putDataset_go (a := a) hs hp (filters_over ho a)
  have po := putDataset_post hp.pre a _ h1
  obtain ⟨s2, h3, h4⟩ := setAttrsM_go (d := true) h2 (po.ok p rfl).lt hat
  exact ⟨some p, s2, by rw [run_bind_ok h1, run_bind_ok h3]; rfl, h4⟩

/-- Values without parts that can be written. -/
structure LeafOk (o : COpts) (c : Cont) (a : Arr) : Prop where
  cls : o.matlab = true → o.action = .error → a.dt.matlabClass ≠ none
  cplx : a.dt = .c64 ∨ a.dt = .c128 → PartNames o
  str : o.str16 = true → c ≠ .scalar → (∃ n, a.dt = .str n) → a.shape ≠ []

theorem u32_dt (a : Arr) : (convertNumpyStrToUint32 a).dt = .u32 := by unfold convertNumpyStrToUint32; split <;> rfl

theorem u16_dt {a b : Arr} (h : convertNumpyStrToUint16 a = .ok b) : b.dt = .u16 := by
  unfold convertNumpyStrToUint16 at h
  split at h
  · cases h; rfl
  · obtain ⟨e, _, h2⟩ := res_bind_ok.mp h
    cases h2; rfl

theorem strStep_ok {o : COpts} {sc : Bool} {a : Arr} (h : o.str16 = true → sc = false → (∃ n, a.dt = .str n) → a.shape ≠ []) :
    ∃ d, strStep o sc a = .ok d ∧ (d.dt = .u16 ∨ d.dt = .u32 ∨ d.dt = a.dt) := by
  unfold strStep
  split
  · rename_i n hdt
    cases ho : (if o.str16 = true then (convertNumpyStrToUint16 a).toOption else none) with
    | none => exact ⟨_, rfl, Or.inr (Or.inl (u32_dt a))⟩
    | some b =>
      have h16 : o.str16 = true ∧ b.dt = .u16 := by
        split at ho
        · rename_i h1
          refine ⟨h1, ?_⟩
          cases hc : convertNumpyStrToUint16 a with
          | error e => rw [hc] at ho; cases ho
          | ok b' => rw [hc] at ho; cases ho; exact u16_dt hc
        · cases ho
      have hr : ∀ c : Bool, (if c then convertNumpyStrToUint32 a else b).dt = .u16 ∨ (if c then convertNumpyStrToUint32 a else b).dt = .u32 := by
        intro c; cases c
        · exact Or.inl h16.2
        · exact Or.inr (u32_dt a)
      dsimp only
      split
      · refine ⟨_, rfl, ?_⟩
        split
        · exact Or.inr (Or.inl (u32_dt a))
        · exact Or.inl h16.2
      · rename_i hsc
        rw [if_neg]
        · refine ⟨_, rfl, ?_⟩
          split
          · exact Or.inr (Or.inl (u32_dt a))
          · exact Or.inl h16.2
        · have := h h16.1 (by simpa using hsc) ⟨n, hdt⟩
          simpa using this
  · exact ⟨a, rfl, Or.inr (Or.inr rfl)⟩

theorem bytesStep_dt (o : COpts) (a : Arr) : (bytesStep o a).dt = .u16 ∨ bytesStep o a = a := by
  unfold bytesStep
  split
  · split
    · split
      · exact Or.inl rfl
      · dsimp only
        split
        · exact Or.inl rfl
        · exact Or.inr rfl
    · exact Or.inr rfl
  · exact Or.inr rfl

theorem complexStep_ok {o : COpts} {a : Arr} (h : a.dt = .c64 ∨ a.dt = .c128 → PartNames o) : ∃ d, complexStep o a = .ok d := by
  have key : PartNames o → fieldName o.complexNames.1 0 ≠ fieldName o.complexNames.2 1 := by
    intro hp
    unfold fieldName
    rw [if_neg (by simpa using hp.re), if_neg (by simpa using hp.im)]
    exact hp.ne
  unfold complexStep
  split
  · rename_i hdt
    unfold encodeComplex
    dsimp only
    rw [if_neg (key (h (Or.inl hdt))), hdt]
    exact ⟨_, rfl⟩
  · rename_i hdt
    unfold encodeComplex
    dsimp only
    rw [if_neg (key (h (Or.inr hdt))), hdt]
    exact ⟨_, rfl⟩
  · exact ⟨a, rfl⟩

theorem prepare_ok {o : COpts} {c : Cont} {a : Arr} (h : LeafOk o c a) : ∃ d, prepare o c a = .ok d := by
  obtain ⟨d, h1, h2⟩ := strStep_ok (o := o) (sc := c == .scalar) (a := bytesStep o a) (by
    intro h1 h2 h3
    rcases bytesStep_dt o a with hb | hb
    · obtain ⟨n, hn⟩ := h3
      rw [hb] at hn; cases hn
    · rw [hb] at h3 ⊢
      exact h.str h1 (by intro hc; rw [hc] at h2; exact absurd h2 (by decide)) h3)
  have hcx : d.dt = .c64 ∨ d.dt = .c128 → PartNames o := by
    intro hd
    have : d.dt = (bytesStep o a).dt := by
      rcases h2 with h2 | h2 | h2
      · rw [h2] at hd; rcases hd with hd | hd <;> cases hd
      · rw [h2] at hd; rcases hd with hd | hd <;> cases hd
      · exact h2
    rw [this] at hd
    rcases bytesStep_dt o a with hb | hb
    · rw [hb] at hd; rcases hd with hd | hd <;> cases hd
    · rw [hb] at hd; exact h.cplx hd
  unfold prepare
  rw [h1]
  show ∃ d', complexStep o _ = .ok d'
  refine complexStep_ok ?_
  intro hr
  split at hr
  · rcases hr with hr | hr <;> cases hr
  · refine hcx ?_
    have e1 : ∀ b : Arr, (atleast2dStep o b).dt = b.dt := by intro b; unfold atleast2dStep; split <;> rfl
    have e2 : ∀ b : Arr, (reverseStep o b).dt = b.dt := by intro b; unfold reverseStep; split <;> rfl
    unfold boolStep at hr
    split at hr
    · rcases hr with hr | hr <;> cases hr
    · rw [e2, e1] at hr; exact hr

/-- Writing numpy data succeeds. -/
theorem writeNp_go {x : Ctx} {s : St} {g : Nat} {name : Str} {c : Cont} {a : Arr} {ts : Str} (ho : CanOverwrite x.o) (hl : LeafOk x.o c a) (hts : Ascii ts) (hs : Go K x s)
    (hp : PlaceOk x s g name) : ∃ p s1, writeNp x g name c a ts s = (.ok p, s1) ∧ Go K x s1 := by
  unfold writeNp
  rw [if_neg (fun h => hl.cls h.1 h.2.2 h.2.1)]
  split
  · exact ⟨none, s, rfl, hs⟩
  · obtain ⟨d, hd⟩ := prepare_ok hl
    rw [run_bind_ok (show (liftRes (prepare x.o c a) : M Arr) s = (.ok d, s) by rw [hd]; rfl)]
    exact putAttrs_go ho hs hp (npAttrs_ok _ _ _ _ _ _ hts)

/-- A recursive writer and what is known of it. -/
structure WrKit (x : Ctx) (wr : Wr) : Prop where
  ok : WrOk x wr
  grp : ∀ p g gn name v, Pres (fun h => isGroup h p = true) (wr g gn name v)

/-- Writing the value succeeds. -/
def WrGo (x : Ctx) (wr : Wr) (v : Val) : Prop := ∀ (K : Nat → Prop) s g gn name, Go K x s → PlaceOk x s g name → (x.o.matlab = true → Grouped v → Ascii gn ∧ Ascii name) →
  Goes K x (wr g gn name v) s (fun _ s' => Go K x s')

theorem hexDigit_ascii {d : Nat} (h : d < 16) : hexDigit d < 128 := by unfold hexDigit; split <;> omega

theorem ascii_hexGo (f n : Nat) : Ascii (hexGo f n) := by
  intro c hc
  obtain ⟨d, hd, rfl⟩ := hexGo_mem f n c hc
  exact hexDigit_ascii hd

theorem ascii_randName (x : Ctx) (i : Nat) : Ascii (randName x i) := by
  intro c hc
  obtain ⟨d, hd, rfl⟩ := hexFixed_mem _ _ c hc
  exact hexDigit_ascii hd

theorem randName_ne_nil (x : Ctx) (i : Nat) : randName x i ≠ [] := by
  intro h
  have := hexFixed_length 16 (x.rng i % 2 ^ 64)
  rw [show hexFixed 16 (x.rng i % 2 ^ 64) = [] from h] at this
  simp at this

theorem writeElems_go {x : Ctx} (hx : RefsOk x) {wr : Wr} (hk : WrKit x wr) {r c : Nat} {vs : List Val} (hv : ∀ v ∈ vs, WrGo x wr v) {s : St} (hs : Go K x s)
    (hr : s.refs = some r) : Goes K x (writeElems x wr r c vs) s (fun _ s' => Go K x s') := by
  induction vs generalizing s with
  | nil => exact Goes.pure hs
  | cons v vs ih =>
    rw [writeElems]
    refine (nextName_go hx hs hr).bind ?_
    intro nm s1 e1 ⟨hs1, hr1⟩
    obtain ⟨st, hn⟩ := nextName_spec hs.inv hr e1
    obtain ⟨n1, n2, n3, n4⟩ := hn nm rfl
    have hasc : Ascii nm ∧ nm ≠ [] := by
      rcases n4 with ⟨_, rfl, _⟩ | ⟨_, i, _, _, rfl⟩
      · exact ⟨ascii_hexGo _ _, hexStr_ne_nil _⟩
      · exact ⟨ascii_randName x i, randName_ne_nil x i⟩
    have hres1 := hs1.inv.refs r hr1
    have hpl : PlaceOk x s1 r nm := ⟨⟨st.inv, resolve_lt st.inv _ (plainComps x) r hres1.1, n1, offPath_refs st.inv hres1.1 nm, n2, fun q hq => absurd hq (n3 q)⟩, hres1.2,
      nameOk_iff.mpr (ascii_scalars hasc.1), hasc.2⟩
    refine (hv v (by simp) _ s1 r (refsName x.o) nm hs1 hpl (fun hm _ => ⟨hx.ascii hm, hasc.1⟩)).bind ?_
    intro ob s2 e2 hs2
    have el := elem_step hk.ok hs.inv hr e1 e2
    have hr2 := el.1.keepRefs hr
    have hv' : ∀ v ∈ vs, WrGo x wr v := fun w hw => hv w (by simp [hw])
    cases ob with
    | none =>
      refine (ih hv' hs2 hr2).bind ?_
      intro rest s3 _ hs3
      exact Goes.pure hs3
    | some p =>
      obtain ⟨s3, e3, hs3⟩ := setH5Path_go (p := p) hs2 hx.ascii
      have hr3 := (setH5Path_step hs2.inv p _ e3).keepRefs hr2
      refine (Goes.ok e3 (P := fun _ s' => Go K x s' ∧ s'.refs = some r) ⟨hs3, hr3⟩).bind ?_
      intro _ s4 _ ⟨hs4, hr4⟩
      refine (ih hv' hs4 hr4).bind ?_
      intro rest s5 _ hs5
      exact Goes.pure hs5

theorem writeObjectArray_go {x : Ctx} (hx : RefsOk x) {wr : Wr} (hk : WrKit x wr) {vs : List Val} (hv : ∀ v ∈ vs, WrGo x wr v) {s : St} (hs : Go K x s) :
    Goes K x (writeObjectArray x wr vs) s (fun _ s' => Go K x s') := by
  unfold writeObjectArray
  obtain ⟨r, s1, e1, h1, hr⟩ := ensureRefs_go hx hs
  refine (Goes.ok e1 (P := fun a s' => Go K x s' ∧ s'.refs = some a) ⟨h1, hr⟩).bind ?_
  intro r s1 e1 ⟨h1, hr⟩
  obtain ⟨c, s2, e2, h2, hr2⟩ := ensureCanon_go h1 hr
  refine (Goes.ok e2 (P := fun _ s' => Go K x s' ∧ s'.refs = some r) ⟨h2, hr2⟩).bind ?_
  intro c s2 _ ⟨h2, hr2⟩
  exact writeElems_go hx hk hv h2 hr2

theorem PlaceOk.keep {x : Ctx} {A D} {s s1 : St} {g : Nat} {name : Str} (h : PlaceOk x s g name) (st : Step x A D s s1) (hg : isGroup s1.heap g = true) : PlaceOk x s1 g name :=
  ⟨h.pre.keep st, hg, h.enc, h.ne⟩

theorem Pres.run {α : Type} {P : Heap → Prop} {m : M α} (h : Pres P m) {s s' : St} {r : Res α} (e : m s = (r, s')) (hs : P s.heap) : P s'.heap := by
  have := h s hs
  rw [e] at this
  exact this

theorem writeObjectArray_grp {x : Ctx} {wr : Wr} (hk : WrKit x wr) {vs : List Val} {s s' : St} {r : Res (List Nat)} (e : writeObjectArray x wr vs s = (r, s')) {p : Nat}
    (hp : isGroup s.heap p = true) : isGroup s'.heap p = true := by
  have E := group_elem x.o p
  refine Pres.run (P := fun h => isGroup h p = true) (m := writeObjectArray x wr vs) ?_ e hp
  unfold writeObjectArray
  exact Pres.bind (Pres.ensureRefs E) fun _ => Pres.bind (Pres.ensureCanon E) fun _ => Pres.writeElems E (hk.grp p) vs

/-- Writing an object array succeeds. -/
theorem writeNpObj_go {x : Ctx} (hx : RefsOk x) (ho : CanOverwrite x.o) {wr : Wr} (hk : WrKit x wr) {g : Nat} {name : Str} {c : Cont} {shape : List Nat} {elems : List Val}
    {ts : Str} (hts : Ascii ts) (hv : ∀ v ∈ elems, WrGo x wr v) (hsz : elems.length = prodN shape) {s : St} (hs : Go K x s) (hp : PlaceOk x s g name) :
    Goes K x (writeNpObj x wr g name c shape elems ts) s (fun _ s' => Go K x s') := by
  unfold writeNpObj
  dsimp only
  generalize hel : (if x.o.reverse = true then _ else elems) = el
  have hvel : ∀ v ∈ el, WrGo x wr v := by
    intro v hv'
    rw [← hel] at hv'
    split at hv'
    · refine hv v (mem_transposeData _ _ ?_ v hv')
      rw [hsz]
      split
      · exact (prodN_atleast2d shape).symm
      · rfl
    · exact hv v hv'
  have put : ∀ (s : St), Go K x s → PlaceOk x s g name → ∀ d : Arr, Goes K x (putDataset g name d (filtersFor x.o d) >>= fun p =>
      setAttrsM p (npAttrs x.o c .object shape (prodN shape == 0) d.dt ts) true >>= fun _ => (pure (some p) : M (Option Nat))) s (fun _ s' => Go K x s') := by
    intro s hs hp d
    obtain ⟨p, s1, h1, h2⟩ := putAttrs_go (a := d) ho hs hp (npAttrs_ok x.o c .object shape (prodN shape == 0) d.dt hts)
    exact Goes.ok h1 h2
  split
  · refine (Goes.pure (P := fun _ s' => Go K x s' ∧ PlaceOk x s' g name) ⟨hs, hp⟩).bind ?_
    intro d s1 _ ⟨h1, h2⟩
    exact put s1 h1 h2 d
  · refine Goes.bind (P := fun _ s' => Go K x s' ∧ PlaceOk x s' g name) ?_ ?_
    · refine (writeObjectArray_go hx hk hvel hs).bind ?_
      intro refs s1 e1 h1
      exact Goes.pure ⟨h1, hp.keep (writeObjectArray_step hk.ok hs.inv e1) (writeObjectArray_grp hk e1 hp.grp)⟩
    · intro d s1 _ ⟨h1, h2⟩
      exact put s1 h1 h2 d

end HS
