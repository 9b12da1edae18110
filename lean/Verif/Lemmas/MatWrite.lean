import Verif.Lemmas.MatFile
import Verif.Lemmas.ProgressAll
import Verif.Model.Mat
/-
The writers keep the file as MATLAB expects it.
-/
namespace HS
open Spec

theorem getGroup_isGroup {g q : Nat} {name : Str} {s s' : St} (h : getGroup g name s = (.ok q, s')) : isGroup s'.heap q = true := by
  have cr : ∀ s0 : St, createGroup g name s0 = (.ok q, s') → isGroup s'.heap q = true := by
    intro s0 h0
    rcases createObj_run g name ⟨[], .group []⟩ s0 with ⟨e, h1⟩ | ⟨h1, _⟩
    · rw [createGroup, h1] at h0; cases h0
    · rw [createGroup, h1] at h0
      cases h0
      exact isGroup_new s0.heap g name
  unfold getGroup at h
  rcases bind_run (getLink g name) _ s with ⟨a, s1, e1, e2⟩ | ⟨e, s1, e1, e2⟩
  · rw [e2] at h
    cases a with
    | none => exact cr s1 h
    | some r =>
      dsimp only at h
      rw [run_getSt] at h
      split at h
      · rename_i hg
        cases h
        exact hg
      · rcases bind_run (unlink g name) (fun _ => createGroup g name) s1 with ⟨u, s2, e3, e4⟩ | ⟨e, s2, e3, e4⟩
        · exact cr s2 (e4 ▸ h)
        · have := e4.symm.trans h; cases this
  · rw [e2] at h; cases h

/-- Parts of values as numpy has them. -/
theorem NumpyOk.part {v w : Val} (h : NumpyOk v) (hp : ∀ u, Inside w u → Inside v u) : NumpyOk w :=
  ⟨fun a hi => h.scalar a (hp _ hi), fun c a hi => h.notObject c a (hp _ hi), fun c sh n t e hi => h.names c sh n t e (hp _ hi)⟩

theorem numpyOk_simple {v : Val} (h : ∀ w, Inside v w → w = v) (h1 : ∀ c a, v ≠ .np c a) (h2 : ∀ c s n t e, v ≠ .npStruct c s n t e) : NumpyOk v :=
  ⟨fun a hi => absurd (h _ hi).symm (h1 _ _), fun c a hi => absurd (h _ hi).symm (h1 _ _), fun c s n t e hi => absurd (h _ hi).symm (h2 _ _ _ _ _)⟩

theorem numpyOk_none : NumpyOk .none := numpyOk_simple (by intro w h; cases h; rfl) (by intros; simp) (by intros; simp)
theorem numpyOk_str (s : Str) : NumpyOk (.str s) := numpyOk_simple (by intro w h; cases h; rfl) (by intros; simp) (by intros; simp)

theorem numpyOk_seq {k : SeqKind} {l : List Val} (h : ∀ e ∈ l, NumpyOk e) : NumpyOk (.seq k l) := by
  refine ⟨fun a hi => ?_, fun c a hi => ?_, fun c s n t e hi => ?_⟩
  · cases hi with | seq _ _ e _ he hi => exact (h e he).scalar a hi
  · cases hi with | seq _ _ e _ he hi => exact (h e he).notObject c a hi
  · cases hi with | seq _ _ e' _ he hi => exact (h e' he).names c s n t e hi

theorem numpyOk_npObj {c : Cont} {sh : List Nat} {l : List Val} (h : ∀ e ∈ l, NumpyOk e) : NumpyOk (.npObj c sh l) := by
  refine ⟨fun a hi => ?_, fun c a hi => ?_, fun c s n t e hi => ?_⟩
  · cases hi with | npObj _ _ _ e _ he hi => exact (h e he).scalar a hi
  · cases hi with | npObj _ _ _ e _ he hi => exact (h e he).notObject c a hi
  · cases hi with | npObj _ _ _ e' _ he hi => exact (h e' he).names c s n t e hi

theorem numpyOk_transpose {sh : List Nat} {l : List Val} (h : ∀ e ∈ l, NumpyOk e) : ∀ e ∈ transposeData sh l, NumpyOk e := by
  intro e he
  unfold transposeData at he
  obtain ⟨i, _, rfl⟩ := List.mem_map.mp he
  rw [List.getD_eq_getElem?_getD]
  cases hq : l[ravelN sh i.reverse]? with
  | none => exact numpyOk_none
  | some v => exact h v (List.mem_of_getElem? hq)

/-- What is known of the writer: it keeps the file as MATLAB expects it, and an object array with elements becomes a Dataset of references. -/
structure WrMat (wr : Wr) : Prop where
  keep : ∀ g gn name v, NumpyOk v → Pres MatFile (wr g gn name v)
  refs : ∀ g gn name c sh el s p s', (∀ e ∈ el, NumpyOk e) → prodN sh ≠ 0 → MatFile s.heap → wr g gn name (.npObj c sh el) s = (.ok (some p), s') →
    ∃ at' a f, s'.heap[p]? = some ⟨at', .dset a f⟩ ∧ a.dt = .ref

theorem writeNp_mat {x : Ctx} (hO : MatO x.o) {g : Nat} {name : Str} {c : Cont} {a : Arr} {ts : Str} (hts : Ascii ts) (hno : a.dt ≠ .object) (hsc : c = .scalar → a.shape = []) :
    Pres MatFile (writeNp x g name c a ts) := by
  unfold writeNp
  cases hcl : a.dt.matlabClass with
  | none =>
    split
    · exact Pres.raise _
    split
    · exact Pres.pure _
    · rename_i h1 h2
      exfalso
      cases ha : x.o.action with
      | ignore => exact hO.action ha
      | discard => exact h2 ⟨hO.matlab, rfl, ha⟩
      | error => exact h1 ⟨hO.matlab, rfl, ha⟩
  | some cl =>
    rw [if_neg (by simp), if_neg (by simp)]
    intro s hm
    rcases bind_run (liftRes (prepare x.o c a)) _ s with ⟨d, s1, e1, e2⟩ | ⟨e, s1, e1, e2⟩
    · rw [e2]
      have hp : prepare x.o c a = .ok d ∧ s1 = s := by
        have h1 : ((prepare x.o c a), s) = (.ok d, s1) := e1
        exact ⟨congrArg Prod.fst h1, (congrArg Prod.snd h1).symm⟩
      obtain ⟨hp, rfl⟩ := hp
      obtain ⟨p1, p2⟩ := prepare_mat hO hcl hno hsc hp
      have hst : (h5Store d).dt = d.dt := by
        cases he : a.isEmpty with
        | false => rw [classFits_h5 (p1 he).2.2]
        | true => obtain ⟨ds, _, _, rfl⟩ := p2 he; rfl
      obtain ⟨n1, n2, n3⟩ := npAttrs_mat hO.matlab c hcl a.shape a.isEmpty (h5Store d).dt ts
      have hfit : ∃ dt, ClassFits dt cl := by
        cases hd : a.dt <;> rw [hd] at hcl hno <;> first | exact absurd rfl hno | (cases hcl; done) | (cases hcl; exact ⟨_, by constructor⟩)
      have hnew : NewOk d (npAttrs x.o c a.dt a.shape a.isEmpty (h5Store d).dt ts) a.isEmpty cl := by
        obtain ⟨_, hf⟩ := hfit
        exact ⟨n1, classFits_ascii hf, n2, fun i v h1 h2 => by rw [n3 i v h1 h2, hst], p1, fun he => ⟨p2 he, Or.inl ⟨_, hf⟩⟩⟩
      have hnd := npAttrs_nodup x.o c a.dt a.shape a.isEmpty (h5Store d).dt ts
      have hok : ∀ e ∈ npAttrs x.o c a.dt a.shape a.isEmpty (h5Store d).dt ts, ∃ v, e.2.stored = .ok v := fun e he => (npAttrs_ok x.o c a.dt a.shape a.isEmpty (h5Store d).dt hts e he).1
      rcases putAttrs_mat (g := g) (name := name) (f := filtersFor x.o d) hnd hok (newOk_matObj hnew hnd hok) hm with ⟨e, s', h1, h2⟩ | ⟨q, s', at', f', h1, h2, _⟩
      · have h3 := congrArg (fun r => r.2.heap) h1
        exact h3 ▸ h2
      · have h3 := congrArg (fun r => r.2.heap) h1
        exact h3 ▸ h2
    · rw [e2]
      have h1 : ((prepare x.o c a), s) = (.error e, s1) := e1
      have : s1 = s := (congrArg Prod.snd h1).symm
      rw [this]
      exact hm

theorem writeElems_mat {x : Ctx} {wr : Wr} (hw : WrMat wr) {r c : Nat} (l : List Val) (hl : ∀ e ∈ l, NumpyOk e) : Pres MatFile (writeElems x wr r c l) := by
  induction l with
  | nil => exact Pres.pure _
  | cons v l ih =>
    have ih := ih fun e he => hl e (by simp [he])
    refine Pres.bind (Base.nextName mat_base) fun nm => Pres.bind (hw.keep _ _ _ _ (hl v (by simp))) fun ob => ?_
    cases ob with
    | none => exact Pres.bind ih fun _ => Pres.pure _
    | some p => exact Pres.bind pres_setH5Path fun _ => Pres.bind ih fun _ => Pres.pure _

theorem writeNpObj_mat {x : Ctx} (hO : MatO x.o) {wr : Wr} (hw : WrMat wr) {g : Nat} {name : Str} {c : Cont} {shape : List Nat} {elems : List Val} {ts : Str} (hts : Ascii ts)
    (hl : ∀ e ∈ elems, NumpyOk e) {s : St} (hm : MatFile s.heap) : MatFile (writeNpObj x wr g name c shape elems ts s).2.heap ∧
    (prodN shape ≠ 0 → ∀ p s', writeNpObj x wr g name c shape elems ts s = (.ok (some p), s') → ∃ at' a f, s'.heap[p]? = some ⟨at', .dset a f⟩ ∧ a.dt = .ref) := by
  have hlen : ∀ l : List Nat, (if x.o.reverse = true then l.reverse else l).length = l.length := by intro l; split <;> simp
  have hmem : ∀ l : List Nat, 0 ∈ (if x.o.reverse = true then l.reverse else l) ↔ 0 ∈ l := by intro l; split <;> simp
  have h2d : (if x.o.atleast2d = true then atleast2dShape shape else shape) = atleast2dShape shape := if_pos hO.atleast2d
  have fin : ∀ (d : Arr) (s1 : St), MatFile s1.heap → (prodN shape ≠ 0 → 2 ≤ d.shape.length ∧ 0 ∉ d.shape ∧ d.dt = .ref) →
      (prodN shape = 0 → ∃ ds : List Nat, 2 ≤ ds.length ∧ 0 ∈ ds ∧ d = shapeArr ds) →
      (MatFile ((putDataset g name d (filtersFor x.o d) >>= fun p => setAttrsM p (npAttrs x.o c .object shape (prodN shape == 0) d.dt ts) true >>= fun _ => (pure (some p) : M (Option Nat))) s1).2.heap ∧
      (prodN shape ≠ 0 → ∀ p s', (putDataset g name d (filtersFor x.o d) >>= fun p => setAttrsM p (npAttrs x.o c .object shape (prodN shape == 0) d.dt ts) true >>= fun _ => (pure (some p) : M (Option Nat))) s1 = (.ok (some p), s') →
        ∃ at' a f, s'.heap[p]? = some ⟨at', .dset a f⟩ ∧ a.dt = .ref)) := by
    intro d s1 h1 hd1 hd2
    obtain ⟨n1, n2, n3⟩ := npAttrs_mat hO.matlab c (dt := .object) (cl := p!"cell") rfl shape (prodN shape == 0) d.dt ts
    have hnew : NewOk d (npAttrs x.o c .object shape (prodN shape == 0) d.dt ts) (prodN shape == 0) p!"cell" := by
      refine ⟨n1, ascii_all rfl, n2, n3, fun he => ?_, fun he => ⟨hd2 (by simpa using he), Or.inl ⟨_, .cell⟩⟩⟩
      obtain ⟨a1, a2, a3⟩ := hd1 (by simpa using he)
      exact ⟨a1, a2, by rw [a3]; exact .cell⟩
    have hnd := npAttrs_nodup x.o c .object shape (prodN shape == 0) d.dt ts
    have hok : ∀ e ∈ npAttrs x.o c .object shape (prodN shape == 0) d.dt ts, ∃ v, e.2.stored = .ok v := fun e he => (npAttrs_ok x.o c .object shape (prodN shape == 0) d.dt hts e he).1
    rcases putAttrs_mat (g := g) (name := name) (f := filtersFor x.o d) hnd hok (newOk_matObj hnew hnd hok) h1 with ⟨e, s', h1, h2⟩ | ⟨q, s', at', f', h1, h2, h3⟩
    · rw [h1]
      exact ⟨h2, fun _ p s' h => by cases h⟩
    · rw [h1]
      refine ⟨h2, fun h0 p s'' h => ?_⟩
      cases h
      exact ⟨at', _, f', h3, by rw [classFits_h5 (c := p!"cell") (by rw [(hd1 h0).2.2]; exact .cell)]; exact (hd1 h0).2.2⟩
  unfold writeNpObj
  rw [h2d, hO.storeShape]
  by_cases h0 : prodN shape = 0
  · have hb : (true && prodN shape == 0) = true := by simp [h0]
    simp only [hb, if_true]
    refine fin _ s hm (fun h => absurd h0 h) fun _ => ⟨_, ?_, ?_, rfl⟩
    · rw [hlen, hlen]; exact rank2 _
    · rw [hmem, hmem, zero_mem_prod, prodN_atleast2d]; exact h0
  · have hb : (true && prodN shape == 0) = false := by simp [h0]
    simp only [hb, Bool.false_eq_true, if_false]
    have hel : ∀ e ∈ (if x.o.reverse = true then transposeData (atleast2dShape shape) elems else elems), NumpyOk e := by
      split
      · exact numpyOk_transpose hl
      · exact hl
    have hP : Pres MatFile (writeObjectArray x wr (if x.o.reverse = true then transposeData (atleast2dShape shape) elems else elems)) :=
      Pres.bind (Base.ensureRefs mat_base) fun _ => Pres.bind (Base.ensureCanon mat_base) fun _ => writeElems_mat hw _ hel
    have hm1 := hP s hm
    rcases bind_run (writeObjectArray x wr (if x.o.reverse = true then transposeData (atleast2dShape shape) elems else elems))
      (fun refs => (pure ⟨.ref, (if x.o.reverse = true then (atleast2dShape shape).reverse else atleast2dShape shape), refs.map El.ref⟩ : M Arr)) s with ⟨refs, s1, e1, e2⟩ | ⟨e, s1, e1, e2⟩
    · rw [e1] at hm1
      rw [run_bind_ok e2]
      refine fin _ s1 hm1 (fun _ => ⟨?_, ?_, rfl⟩) fun h => absurd h h0
      · dsimp only; rw [hlen]; exact rank2 _
      · dsimp only; rw [hmem, zero_mem_prod, prodN_atleast2d]; exact h0
    · rw [e1] at hm1
      rw [run_bind_err e2]
      exact ⟨hm1, fun _ p s' h => by cases h⟩


theorem writeItems_mat {x : Ctx} {wr : Wr} (hw : WrMat wr) {g : Nat} {gn : Str} (l : List (Str × Val)) (hl : ∀ e ∈ l, NumpyOk e.2) : Pres MatFile (writeItems x wr g gn l) := by
  induction l with
  | nil => exact Pres.pure _
  | cons kv l ih =>
    obtain ⟨k, v⟩ := kv
    have ih := ih fun e he => hl e (by simp [he])
    refine Pres.bind (hw.keep _ _ _ _ (hl (k, v) (by simp))) fun ob => ?_
    cases ob with
    | none => exact ih
    | some p => exact Pres.bind pres_setH5Path fun _ => ih

theorem dictAttrs_class {o : COpts} {info : Option (List (Str × Nat))} {st : Bool} {ts : Str} (i : AIn) (h : (p!"MATLAB_class", i) ∈ dictAttrs o info st ts) : i = .string p!"struct" := by
  have key : ∀ (l : List (Str × AIn)), (∀ k j, (k, j) ∈ l → k ≠ p!"MATLAB_class") → (p!"MATLAB_class", i) ∈ l → i = .string p!"struct" := fun l hl hi => absurd rfl (hl _ _ hi)
  have none1 : ∀ (k : Str) (j : AIn), (k, j) ∈ ([] : List (Str × AIn)) → k ≠ p!"MATLAB_class" := by intro k j hj; cases hj
  unfold dictAttrs at h
  rcases List.mem_append.mp h with h | h
  · rcases List.mem_append.mp h with h | h
    · rcases List.mem_append.mp h with h | h
      · split at h
        · cases info with
          | none =>
            refine key _ ?_ h
            intro k j hj
            simp only [List.mem_cons, Prod.mk.injEq, List.not_mem_nil, or_false] at hj
            rcases hj with ⟨rfl, _⟩ | ⟨rfl, _⟩ <;> decide
          | some l =>
            refine key _ ?_ h
            intro k j hj
            simp only [List.mem_cons, Prod.mk.injEq, List.not_mem_nil, or_false] at hj
            rcases hj with ⟨rfl, _⟩ | ⟨rfl, _⟩ | ⟨rfl, _⟩ <;> decide
        · exact key _ none1 h
      · cases info with
        | none => exact key _ none1 h
        | some l =>
          dsimp only at h
          split at h
          · refine key _ ?_ h
            intro k j hj
            simp only [List.mem_cons, Prod.mk.injEq, List.not_mem_nil, or_false] at hj
            rcases hj with ⟨rfl, _⟩; decide
          · exact key _ none1 h
    · split at h
      · simp only [List.mem_cons, Prod.mk.injEq, List.not_mem_nil, or_false, true_and] at h
        exact h
      · exact key _ none1 h
  · split at h
    · refine key _ ?_ h
      intro k j hj
      simp only [List.mem_cons, Prod.mk.injEq, List.not_mem_nil, or_false] at hj
      rcases hj with ⟨rfl, _⟩; decide
    · exact key _ none1 h

theorem writeDict_mat {x : Ctx} {wr : Wr} (hw : WrMat wr) {g : Nat} {gn name : Str} {keys vals : List Val} {st : Bool} {ts : Str} (hk : ∀ e ∈ keys, NumpyOk e) (hv : ∀ e ∈ vals, NumpyOk e) :
    Pres MatFile (writeDict x wr g gn name keys vals st ts) := by
  have hitems : ∀ e ∈ (match keyInfos keys with
      | none => [(x.o.keysName, Val.seq .tuple keys), (x.o.valuesName, Val.seq .tuple vals)]
      | some l => (l.map (·.1)).zip vals : List (Str × Val)), NumpyOk e.2 := by
    intro e he
    cases hi : keyInfos keys with
    | none =>
      rw [hi] at he
      simp only [List.mem_cons, List.not_mem_nil, or_false] at he
      rcases he with rfl | rfl
      · exact numpyOk_seq hk
      · exact numpyOk_seq hv
    | some l =>
      rw [hi] at he
      exact hv _ (List.of_mem_zip he).2
  intro s hm
  unfold writeDict
  have hm1 := Base.getGroup mat_base (g := g) (name := name) s hm
  rcases bind_run (getGroup g name) (fun g2 => setAttrsM g2 (dictAttrs x.o (keyInfos keys) st ts) true >>= fun _ => (do
    let items : List (Str × Val) := match keyInfos keys with
      | none => [(x.o.keysName, .seq .tuple keys), (x.o.valuesName, .seq .tuple vals)]
      | some l => (l.map (·.1)).zip vals
    let _ ← (if (keyInfos keys).isNone || x.o.deleteUnused then deleteOthers g2 (items.map (·.1)) else pure () : M Unit)
    let gn := joinName gn name
    let _ ← (if x.o.matlab then liftRes (asciiEnc gn) else pure [] : M Bytes)
    let _ ← writeItems x wr g2 gn items
    pure (some g2))) s with ⟨g2, s1, e1, e2⟩ | ⟨e, s1, e1, e2⟩
  · refine (congrArg (fun r => MatFile r.2.heap) e2).mpr ?_
    rw [e1] at hm1
    have hm2 := pres_groupAttrs (d := true) (new := dictAttrs x.o (keyInfos keys) st ts) (fun i hi => dictAttrs_class i hi) hm1 (getGroup_isGroup e1)
    have rest : Pres MatFile (do
        let items : List (Str × Val) := match keyInfos keys with
          | none => [(x.o.keysName, .seq .tuple keys), (x.o.valuesName, .seq .tuple vals)]
          | some l => (l.map (·.1)).zip vals
        let _ ← (if (keyInfos keys).isNone || x.o.deleteUnused then deleteOthers g2 (items.map (·.1)) else pure () : M Unit)
        let gn := joinName gn name
        let _ ← (if x.o.matlab then liftRes (asciiEnc gn) else pure [] : M Bytes)
        let _ ← writeItems x wr g2 gn items
        pure (some g2) : M (Option Nat)) := by
      refine Pres.bind ?_ fun _ => Pres.bind ?_ fun _ => Pres.bind (writeItems_mat hw _ hitems) fun _ => Pres.pure _
      · split
        · exact fun s hs => mat_base.filter _ _ _ hs
        · exact Pres.pure _
      · split
        · exact Pres.lift _
        · exact Pres.pure _
    rcases bind_run (setAttrsM g2 (dictAttrs x.o (keyInfos keys) st ts) true) _ s1 with ⟨u, s2, e3, e4⟩ | ⟨e, s2, e3, e4⟩
    · rw [e3] at hm2
      rw [e4]
      exact rest s2 hm2
    · rw [e3] at hm2
      rw [e4]
      exact hm2
  · refine (congrArg (fun r => MatFile r.2.heap) e2).mpr ?_
    rw [e1] at hm1
    exact hm1

/-- The fields of a struct with one element. -/
theorem writeFields_mat1 {x : Ctx} {wr : Wr} (hw : WrMat wr) {g : Nat} {gn : Str} (l : List (Str × Val)) (hl : ∀ e ∈ l, NumpyOk e.2) : Pres MatFile (writeFields x wr g gn false l) := by
  induction l with
  | nil => exact Pres.pure _
  | cons kv l ih =>
    obtain ⟨k, v⟩ := kv
    have ih := ih fun e he => hl e (by simp [he])
    refine Pres.bind (hw.keep _ _ _ _ (hl (k, v) (by simp))) fun ob => ?_
    cases ob with
    | none => exact ih
    | some p =>
      refine Pres.bind (pres_otherAttrs ?_) fun _ => ih
      intro k i hi
      split at hi
      · simp only [List.mem_cons, Prod.mk.injEq, List.not_mem_nil, or_false] at hi
        exact hi.1
      · cases hi

theorem ref_attrs {at' : List (Str × AVal)} {a : Arr} {f : Filters} {new : List (Str × AIn)} (hd : a.dt = .ref) (hm : MatObj ⟨at', .dset a f⟩) (hn : ∀ k i, (k, i) ∈ new → k = p!"H5PATH") :
    MatObj ⟨(setAttributesAll at' new true).2, .dset a f⟩ := by
  have hf : FullOk at' a := by
    rcases hm with h | h
    · obtain ⟨ds, _, _, h1⟩ := h.dims
      rw [h1] at hd
      cases hd
    · exact h
  have hany : ∀ k v, k ≠ p!"H5PATH" → aget (setAttributesAll at' new true).2 k = some v → aget at' k = some v := by
    intro k v hk hv
    rcases setAll_any k v hv with h | ⟨i, h, _⟩
    · exact h
    · exact absurd (hn k i h) hk
  have hop : ∀ k, k ≠ p!"H5PATH" → aget (setAttributesAll at' new true).2 k = none ∨ aget (setAttributesAll at' new true).2 k = aget at' k := by
    intro k hk
    cases hv : aget (setAttributesAll at' new true).2 k with
    | none => exact Or.inl rfl
    | some v => exact Or.inr (hany k v hk hv).symm
  refine Or.inr ⟨hf.rank, hf.dims, ?_, ?_, ?_⟩
  · rcases hop p!"MATLAB_empty" (by decide) with h | h
    · exact h
    · exact h.trans hf.marked
  · rcases hop p!"MATLAB_class" (by decide) with h | h
    · exact Or.inr ⟨hd, h⟩
    · have := hf.cls
      rw [← h] at this
      exact this
  · intro v hv
    exact hf.decode v (hany _ _ (by decide) hv)

/-- The fields of a struct array. -/
theorem writeFields_mat2 {x : Ctx} {wr : Wr} (hw : WrMat wr) {g : Nat} {gn : Str} (l : List (Str × Val))
    (hl : ∀ e ∈ l, ∃ c sh el, e.2 = .npObj c sh el ∧ prodN sh ≠ 0 ∧ ∀ v ∈ el, NumpyOk v) : Pres MatFile (writeFields x wr g gn true l) := by
  induction l with
  | nil => exact Pres.pure _
  | cons kv l ih =>
    obtain ⟨k, v⟩ := kv
    have ih := ih fun e he => hl e (by simp [he])
    obtain ⟨c, sh, el, hv, h0, hel⟩ := hl (k, v) (by simp)
    have hv : v = .npObj c sh el := hv
    subst hv
    intro s hm
    have hk := hw.keep g gn k _ (numpyOk_npObj (c := c) (sh := sh) hel) s hm
    unfold writeFields
    rcases bind_run (wr g gn k (.npObj c sh el)) _ s with ⟨ob, s1, e1, e2⟩ | ⟨e, s1, e1, e2⟩
    · rw [e2]
      rw [e1] at hk
      cases ob with
      | none => exact ih s1 hk
      | some p =>
        dsimp only
        obtain ⟨at', a, f, h1, h2⟩ := hw.refs g gn k c sh el s p s1 hel h0 hm e1
        have hset : MatFile (setAttrsM p (if x.o.matlab = true then [(p!"H5PATH", .string gn)] else []) true s1).2.heap := by
          rw [setAttrsM_heap]
          refine matFile_update hk ?_
          intro ob hob hmo
          rw [h1] at hob
          cases hob
          refine ref_attrs h2 hmo ?_
          intro k i hi
          split at hi
          · simp only [List.mem_cons, Prod.mk.injEq, List.not_mem_nil, or_false] at hi
            exact hi.1
          · cases hi
        rcases bind_run (setAttrsM p (if x.o.matlab = true then [(p!"H5PATH", .string gn)] else []) true) (fun _ => writeFields x wr g gn true l) s1 with ⟨u, s2, e3, e4⟩ | ⟨e, s2, e3, e4⟩
        · rw [e3] at hset
          exact (congrArg (fun r => MatFile r.2.heap) e4).mpr (ih s2 hset)
        · rw [e3] at hset
          exact (congrArg (fun r => MatFile r.2.heap) e4).mpr hset
    · rw [e2]
      rw [e1] at hk
      exact hk

theorem structAttrs_mat {o : COpts} (hO : MatO o) (c : Cont) (types : List FT) (shape : List Nat) (gr : Bool) (esc : List Str) (ts : Str) :
    aget (structAttrs o c types shape gr esc ts) p!"MATLAB_class" = some (.string p!"struct") ∧
    aget (structAttrs o c types shape gr esc ts) p!"MATLAB_empty" = (if prodN shape == 0 then some (.value (.int .u8 1)) else none) ∧
    aget (structAttrs o c types shape gr esc ts) p!"MATLAB_int_decode" = none := by
  unfold structAttrs
  rw [hO.matlab, hO.asStruct]
  cases o.pyMeta <;> cases (prodN shape == 0) <;> cases (esc.all fun i => i.all (· < 128)) <;> exact ⟨rfl, rfl, rfl⟩

theorem mem_aget {l : List (Str × AIn)} {k : Str} {i : AIn} (hnd : (akeys l).Nodup) (h : (k, i) ∈ l) : aget l k = some i := by
  induction l with
  | nil => cases h
  | cons e r ih =>
    obtain ⟨k0, i0⟩ := e
    simp only [akeys, List.map_cons, List.nodup_cons] at hnd
    rcases List.mem_cons.mp h with h | h
    · cases h; simp [aget]
    · have hne : k0 ≠ k := by rintro rfl; exact hnd.1 (List.mem_map.mpr ⟨_, h, rfl⟩)
      simp only [aget, if_neg hne]
      exact ih hnd.2 h


theorem scalars_escape {names esc : List Str} (h : names.mapM escapePath = .ok esc) (hn : ∀ n ∈ names, nameOk n = true) : ∀ e ∈ esc, Scalars e := by
  induction names generalizing esc with
  | nil => cases h; intro e he; cases he
  | cons n r ih =>
    rw [List.mapM_cons] at h
    obtain ⟨a, h1, h⟩ := res_bind_ok.mp h
    obtain ⟨b, h2, h⟩ := res_bind_ok.mp h
    cases h
    intro e he
    rcases List.mem_cons.mp he with rfl | he
    · exact (escape_keeps h1).2.1 (nameOk_iff.mp (hn n (by simp)))
    · exact ih h2 (fun n hn' => hn n (by simp [hn'])) e he

theorem writeStruct_mat {x : Ctx} (hO : MatO x.o) {wr : Wr} (hw : WrMat wr) (hgr : ∀ p g gn n v, Pres (fun h => isGroup h p = true) (wr g gn n v)) {g : Nat} {gn name : Str} {c : Cont}
    {shape : List Nat} {names : List Str} {types : List FT} {elems : List Val} {ts : Str} (hts : Ascii ts) (hn : ∀ n ∈ names, nameOk n = true) (hl : ∀ e ∈ elems, NumpyOk e) :
    Pres MatFile (writeStruct x wr g gn name c shape names types elems ts) := by
  unfold writeStruct
  rw [if_neg (by rw [hO.asStruct]; simp), if_neg (by rw [hO.asStruct]; simp)]
  intro s hm
  rcases bind_run (liftRes (names.mapM escapePath)) _ s with ⟨esc, s1, e1, e2⟩ | ⟨e, s1, e1, e2⟩
  · rw [e2]
    have he : names.mapM escapePath = .ok esc ∧ s1 = s := by
      have h1 : ((names.mapM escapePath : Res (List Str)), s) = (.ok esc, s1) := e1
      exact ⟨congrArg Prod.fst h1, (congrArg Prod.snd h1).symm⟩
    obtain ⟨he, rfl⟩ := he
    have hsc := scalars_escape he hn
    have hnd : ∀ gr, (akeys (structAttrs x.o c types shape gr esc ts)).Nodup := fun gr => structAttrs_nodup ..
    have hok : ∀ gr, ∀ e ∈ structAttrs x.o c types shape gr esc ts, ∃ v, e.2.stored = .ok v := fun gr e he => (structAttrs_ok x.o c types shape gr hts hsc e he).1
    rw [hO.storeShape]
    by_cases h0 : prodN shape = 0
    · rw [if_pos (by simp [h0])]
      obtain ⟨n1, n2, n3⟩ := structAttrs_mat hO c types shape false esc ts
      have hnew : NewOk (shapeArr (shape2d x.o shape)) (structAttrs x.o c types shape false esc ts) true p!"struct" := by
        refine ⟨n1, ascii_all rfl, by rw [n2, h0]; rfl, fun i v hi => (by rw [n3] at hi; cases hi), fun h => (by cases h), fun _ => ⟨⟨_, ?_, ?_, rfl⟩, Or.inr (Or.inl rfl)⟩⟩
        · unfold shape2d; rw [if_pos hO.atleast2d]; exact rank2 _
        · rw [zero_mem_prod, prodN_shape2d]; exact h0
      rcases putAttrs_mat (g := g) (name := name) (f := filtersFor x.o (shapeArr (shape2d x.o shape))) (hnd false) (hok false) (newOk_matObj hnew (hnd false) (hok false)) hm with
        ⟨e, s', h1, h2⟩ | ⟨q, s', at', f', h1, h2, _⟩
      · have h3 := congrArg (fun r => r.2.heap) h1
        exact h3 ▸ h2
      · have h3 := congrArg (fun r => r.2.heap) h1
        exact h3 ▸ h2
    · rw [if_neg (by simp [h0]), if_pos (by unfold structAsGroup; rw [hO.asStruct]; rfl)]
      unfold writeGroup
      have hcols : ∀ col ∈ splitCols (prodN (shape2d x.o shape)) esc.length elems, ∀ e ∈ col, NumpyOk e := fun col hc e he => hl e (splitCols_mem hc e he)
      have hitem : ∀ e ∈ structItems x.o shape esc elems, ∃ col, (∀ v ∈ col, NumpyOk v) ∧ e.2 = fieldValue (shape2d x.o shape) col := by
        intro e he
        obtain ⟨col, h1, h2⟩ := List.mem_map.mp (List.of_mem_zip he).2
        exact ⟨col, hcols col h1, h2.symm⟩
      have hfields : ∀ g2, Pres MatFile (writeFields x wr g2 (joinName gn name) (prodN (shape2d x.o shape) != 1) (structItems x.o shape esc elems)) := by
        intro g2
        by_cases h1 : prodN (shape2d x.o shape) = 1
        · have hb : (prodN (shape2d x.o shape) != 1) = false := by simp [h1]
          rw [hb]
          refine writeFields_mat1 hw _ ?_
          intro e he
          obtain ⟨col, h2, h3⟩ := hitem e he
          rw [h3]
          unfold fieldValue
          rw [if_pos h1]
          cases col with
          | nil => exact numpyOk_none
          | cons v r => exact h2 v (by simp)
        · have hb : (prodN (shape2d x.o shape) != 1) = true := by simp [h1]
          rw [hb]
          refine writeFields_mat2 hw _ ?_
          intro e he
          obtain ⟨col, h2, h3⟩ := hitem e he
          refine ⟨_, _, col, by rw [h3]; unfold fieldValue; rw [if_neg h1], by rw [prodN_shape2d]; exact h0, h2⟩
      have hmid : ∀ g2 (P : Heap → Prop), Base P → Pres P (writeFields x wr g2 (joinName gn name) (prodN (shape2d x.o shape) != 1) (structItems x.o shape esc elems)) →
          Pres P ((if x.o.deleteUnused then deleteOthers g2 esc else pure () : M Unit) >>= fun _ =>
            writeFields x wr g2 (joinName gn name) (prodN (shape2d x.o shape) != 1) (structItems x.o shape esc elems)) := by
        intro g2 P B hP
        refine Pres.bind ?_ fun _ => hP
        split
        · exact fun s hs => B.filter _ _ _ hs
        · exact Pres.pure _
      have hm1 := Base.getGroup mat_base (g := g) (name := name) s1 hm
      rcases bind_run (getGroup g name) (fun g2 => (do
          let _ ← (if x.o.deleteUnused then deleteOthers g2 esc else pure () : M Unit)
          let _ ← writeFields x wr g2 (joinName gn name) (prodN (shape2d x.o shape) != 1) (structItems x.o shape esc elems)
          setAttrsM g2 (structAttrs x.o c types shape true esc ts) true
          pure (some g2) : M (Option Nat))) s1 with ⟨g2, s2, e3, e4⟩ | ⟨e, s2, e3, e4⟩
      · refine (congrArg (fun r => MatFile r.2.heap) e4).mpr ?_
        rw [e3] at hm1
        have hg2 := getGroup_isGroup e3
        have hm2 := hmid g2 MatFile mat_base (hfields g2) s2 hm1
        have hg3 := hmid g2 _ (group_elem x.o g2).base (Pres.writeFields (group_elem x.o g2) (hgr g2) _) s2 hg2
        have assoc : (do
          let _ ← (if x.o.deleteUnused then deleteOthers g2 esc else pure () : M Unit)
          let _ ← writeFields x wr g2 (joinName gn name) (prodN (shape2d x.o shape) != 1) (structItems x.o shape esc elems)
          setAttrsM g2 (structAttrs x.o c types shape true esc ts) true
          pure (some g2) : M (Option Nat)) s2 = (((if x.o.deleteUnused then deleteOthers g2 esc else pure () : M Unit) >>= fun _ =>
            writeFields x wr g2 (joinName gn name) (prodN (shape2d x.o shape) != 1) (structItems x.o shape esc elems)) >>= fun _ =>
            setAttrsM g2 (structAttrs x.o c types shape true esc ts) true >>= fun _ => (pure (some g2) : M (Option Nat))) s2 := by
          rcases bind_run (if x.o.deleteUnused then deleteOthers g2 esc else pure () : M Unit) (fun _ =>
            writeFields x wr g2 (joinName gn name) (prodN (shape2d x.o shape) != 1) (structItems x.o shape esc elems)) s2 with ⟨u, s3, e5, e6⟩ | ⟨e, s3, e5, e6⟩
          · rw [run_bind_ok e5]
            show (M.bind _ _) s3 = (M.bind _ _) s2
            unfold M.bind
            rw [e6]
          · rw [run_bind_err e5]
            show _ = (M.bind _ _) s2
            unfold M.bind
            rw [e6]
        rw [assoc]
        rcases bind_run ((if x.o.deleteUnused then deleteOthers g2 esc else pure () : M Unit) >>= fun _ =>
            writeFields x wr g2 (joinName gn name) (prodN (shape2d x.o shape) != 1) (structItems x.o shape esc elems)) (fun _ =>
            setAttrsM g2 (structAttrs x.o c types shape true esc ts) true >>= fun _ => (pure (some g2) : M (Option Nat))) s2 with ⟨u, s3, e5, e6⟩ | ⟨e, s3, e5, e6⟩
        · rw [e5] at hm2 hg3
          rw [e6]
          have hm4 := pres_groupAttrs (d := true) (new := structAttrs x.o c types shape true esc ts) (fun i hi => by
            have h1 := mem_aget (hnd true) hi
            rw [(structAttrs_mat hO c types shape true esc ts).1] at h1
            cases h1
            rfl) hm2 hg3
          rcases bind_run (setAttrsM g2 (structAttrs x.o c types shape true esc ts) true) (fun _ => (pure (some g2) : M (Option Nat))) s3 with ⟨u, s4, e7, e8⟩ | ⟨e, s4, e7, e8⟩
          · rw [e7] at hm4
            rw [e8]
            exact hm4
          · rw [e7] at hm4
            rw [e8]
            exact hm4
        · rw [e5] at hm2
          rw [e6]
          exact hm2
      · refine (congrArg (fun r => MatFile r.2.heap) e4).mpr ?_
        rw [e3] at hm1
        exact hm1
  · rw [e2]
    have h1 : ((names.mapM escapePath : Res (List Str)), s) = (.error e, s1) := e1
    have : s1 = s := (congrArg Prod.snd h1).symm
    rw [this]
    exact hm


theorem leafOf_ok {v : Val} {c : Cont} {a : Arr} (h : leafOf v = some (c, a)) (hv : NumpyOk v) : a.dt ≠ .object ∧ (c = .scalar → a.shape = []) := by
  cases v with
  | np c' a' =>
    cases h
    exact ⟨hv.notObject _ _ (.self _), fun hc => by subst hc; exact hv.scalar _ (.self _)⟩
  | int i =>
    rw [leafOf] at h
    split at h
    · cases h; exact ⟨by simp, fun _ => rfl⟩
    · cases h; exact ⟨by simp [npBytes, mkBytesArr], fun _ => rfl⟩
  | dtypeObj s =>
    rw [leafOf] at h
    cases hu : utf8Enc s with
    | error e => rw [hu] at h; cases h
    | ok b => rw [hu] at h; cases h; exact ⟨by simp [npBytes, mkBytesArr], fun _ => rfl⟩
  | none => cases h; exact ⟨by simp [npZeros], fun hc => by cases hc⟩
  | ellipsis => cases h; exact ⟨by simp [npZeros], fun hc => by cases hc⟩
  | notImplemented => cases h; exact ⟨by simp [npZeros], fun hc => by cases hc⟩
  | bool b => cases h; exact ⟨by simp, fun _ => rfl⟩
  | float b => cases h; exact ⟨by simp, fun _ => rfl⟩
  | complex a b => cases h; exact ⟨by simp, fun _ => rfl⟩
  | str s => cases h; exact ⟨by simp [npStr], fun _ => rfl⟩
  | bytes b => cases h; exact ⟨by simp [npBytes, mkBytesArr], fun _ => rfl⟩
  | bytearray b => cases h; exact ⟨by simp [npBytes, mkBytesArr], fun _ => rfl⟩
  | npObj _ _ _ => cases h
  | seq _ _ => cases h
  | dict _ _ _ => cases h
  | record _ _ => cases h
  | npStruct _ _ _ _ _ => cases h
  | other => cases h

theorem writeData_mat {x : Ctx} (hO : MatO x.o) (n : Nat) : WrMat (writeData x n) := by
  induction n with
  | zero => exact ⟨fun _ _ _ _ _ => Pres.raise _, fun _ _ _ _ _ _ _ _ _ _ _ _ h => by cases h⟩
  | succ n ih =>
    have hobj : ∀ {c : Cont} {sh : List Nat} {el : List Val}, NumpyOk (.npObj c sh el) → ∀ e ∈ el, NumpyOk e := fun h e he => NumpyOk.part h fun u hu => .npObj _ _ _ e u he hu
    refine ⟨?_, ?_⟩
    · intro g gn name v hv
      have leaf : ∀ v, NumpyOk v → Pres MatFile (match leafOf v with | some (c, a) => writeNp x g name c a (tsOf v) | none => raise .notImplemented : M (Option Nat)) := by
        intro v hv
        cases hl : leafOf v with
        | none => exact Pres.raise _
        | some ca =>
          obtain ⟨c, a⟩ := ca
          obtain ⟨h1, h2⟩ := leafOf_ok hl hv
          exact writeNp_mat hO (ascii_tsOf v) h1 h2
      cases v with
      | npObj c shape elems => exact fun s hs => (writeNpObj_mat hO ih (ascii_tsOf (.npObj c shape elems)) (hobj hv) hs).1
      | seq k elems => exact fun s hs => (writeNpObj_mat hO ih (ascii_tsOf (.seq k elems)) (fun e he => NumpyOk.part hv fun u hu => .seq _ _ e u he hu) hs).1
      | dict k keys vals =>
        exact writeDict_mat ih (fun e he => NumpyOk.part hv fun u hu => .key _ _ _ e u he hu) (fun e he => NumpyOk.part hv fun u hu => .val _ _ _ e u he hu)
      | record k vals =>
        refine writeDict_mat ih (fun e he => ?_) (fun e he => NumpyOk.part hv fun u hu => .record _ _ e u he hu)
        obtain ⟨t, _, rfl⟩ := List.mem_map.mp he
        exact numpyOk_str t
      | npStruct c shape names types elems =>
        exact writeStruct_mat hO ih (fun p => Pres.writeData (group_elem x.o p) n) (ascii_tsOf (.npStruct c shape names types elems)) (hv.names _ _ _ _ _ (.self _))
          (fun e he => NumpyOk.part hv fun u hu => .npStruct _ _ _ _ _ e u he hu)
      | none => exact leaf .none hv
      | ellipsis => exact leaf .ellipsis hv
      | notImplemented => exact leaf .notImplemented hv
      | bool b => exact leaf (.bool b) hv
      | int i => exact leaf (.int i) hv
      | float b => exact leaf (.float b) hv
      | complex a b => exact leaf (.complex a b) hv
      | str s => exact leaf (.str s) hv
      | bytes b => exact leaf (.bytes b) hv
      | bytearray b => exact leaf (.bytearray b) hv
      | np c a => exact leaf (.np c a) hv
      | dtypeObj s => exact leaf (.dtypeObj s) hv
      | other => exact leaf .other hv
    · intro g gn name c sh el s p s' hel h0 hm h
      exact (writeNpObj_mat hO ih (ascii_tsOf (.npObj c sh el)) hel hm).2 h0 p s' h

theorem writeOne_mat {x : Ctx} (hO : MatO x.o) {n : Nat} {gt : Str × Str} {v : Val} (hv : NumpyOk v) : Pres MatFile (writeOne x n gt v) := by
  refine Pres.bind ?_ fun g => (writeData_mat hO n).keep _ _ _ _ hv
  intro s hs
  unfold requireGroup
  split
  · cases resolve s.heap 0 (commonComps gt.1) with
    | none => exact Base.createPath mat_base _ _ s hs
    | some g => dsimp only; split <;> exact hs
  · exact hs

theorem writeMany_mat {x : Ctx} (hO : MatO x.o) {n : Nat} (l : List ((Str × Str) × Val)) (hl : ∀ e ∈ l, NumpyOk e.2) : Pres MatFile (writeMany x n l) := by
  induction l with
  | nil => exact Pres.pure _
  | cons a l ih =>
    obtain ⟨gt, v⟩ := a
    exact Pres.bind (writeOne_mat hO (hl (gt, v) (by simp))) fun _ => ih fun e he => hl e (by simp [he])

theorem checkItems_values {refs : Str} {mdict : List (PathArg × Val)} {tw : List ((Str × Str) × Val)} (h : checkItems refs mdict = .ok tw) : ∀ e ∈ tw, ∃ p, (p, e.2) ∈ mdict := by
  induction mdict generalizing tw with
  | nil => cases h; intro e he; cases he
  | cons a r ih =>
    obtain ⟨p, v⟩ := a
    obtain ⟨gt, h1, h⟩ := res_bind_ok.mp h
    obtain ⟨l, h2, h⟩ := res_bind_ok.mp h
    cases h
    intro e he
    rcases List.mem_cons.mp he with rfl | he
    · exact ⟨p, by simp⟩
    · obtain ⟨q, hq⟩ := ih h2 e he
      exact ⟨q, by simp [hq]⟩

theorem fileWrites_mat {x : Ctx} (hO : MatO x.o) {n : Nat} {mdict : List (PathArg × Val)} (hv : ∀ pv ∈ mdict, NumpyOk pv.2) {F : FileS} (hF : MatFile F.st.heap) :
    MatFile (fileWrites x n mdict F).2.st.heap := by
  unfold fileWrites
  split
  · exact hF
  cases hc : checkItems x.o.refsPath mdict with
  | error e => exact hF
  | ok tw =>
    dsimp only
    split
    · exact hF
    · refine Pres.runFile (writeMany_mat hO tw ?_) hF
      intro e he
      obtain ⟨p, hp⟩ := checkItems_values hc e he
      exact hv _ hp

theorem fileOp_mat {x : Ctx} (hO : MatO x.o) {n : Nat} {op : Op} (hv : ∀ v ∈ written op, NumpyOk v) {F : FileS} (hF : MatFile F.st.heap) :
    MatFile (fileOp x n op F).2.st.heap := by
  cases op with
  | writes m => exact fileWrites_mat hO (fun pv hpv => hv _ (List.mem_map.mpr ⟨pv, hpv, rfl⟩)) hF
  | write p v => exact fileWrites_mat hO (mdict := [(p, v)]) (fun pv hpv => by rw [List.mem_singleton.mp hpv]; exact hv v (by simp [written])) hF
  | reads ps => exact hF
  | read p => exact hF
  | len => exact hF
  | contains p => exact hF
  | iter => exact hF
  | del p =>
    show MatFile (fileDel p F).2.st.heap
    unfold fileDel
    split
    · exact hF
    cases processPath p with
    | error e => exact hF
    | ok gt =>
      dsimp only
      split
      · exact hF
      cases pJoin [gt.1, gt.2] with
      | error e => exact hF
      | ok j => exact Pres.runFile (Base.unlinkPath mat_base _ _) hF
  | close => exact hF
  | flush =>
    show MatFile (fileFlush F).2.st.heap
    unfold fileFlush
    split <;> exact hF
  | closed => exact hF

theorem fileOps_mat {x : Ctx} (hO : MatO x.o) {n : Nat} (ops : List Op) (hv : ∀ op ∈ ops, ∀ v ∈ written op, NumpyOk v) {F : FileS} (hF : MatFile F.st.heap) :
    MatFile (fileOps x n ops F).2.st.heap := by
  induction ops generalizing F with
  | nil => exact hF
  | cons op r ih => exact ih (fun op h => hv op (by simp [h])) (fileOp_mat hO (hv op (by simp)) hF)

theorem matFile_empty : MatFile emptyHeap := by
  intro p ob h
  match p with
  | 0 => cases h; exact Or.inl rfl
  | p + 1 => cases h

end HS
