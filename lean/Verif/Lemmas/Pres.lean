import Verif.Lemmas.Steps
import Verif.Model.File
/-
Properties of the file that every operation keeps because the elementary changes do.
-/
namespace HS

/-- The objects the writers make: empty Groups, the canonical empty, and Datasets with the filters chosen for them. -/
inductive Made (o : COpts) : Obj → Prop
  | group : Made o ⟨[], .group []⟩
  | canon : Made o canonObj
  | dset (d : Arr) : Made o ⟨[], .dset (h5Store d) (filtersFor o d).stored⟩

theorem Made.links {o : COpts} {ob : Obj} (h : Made o ob) : linksOf [ob] 0 = [] := by cases h <;> rfl

/-- Filters of a Dataset that lead to overwriting in place. -/
structure SameFilters (f fb : Filters) : Prop where
  compression : fb.compression = f.compression
  shuffle : fb.shuffle = f.shuffle
  fletcher32 : fb.fletcher32 = f.fletcher32
  opts : f.opts.isSome ∧ fb.opts = f.opts

/-- The elementary changes keep the property. -/
structure Elem (o : COpts) (P : Heap → Prop) : Prop where
  create : ∀ h g name ob, P h → isGroup h g = true → aget (linksOf h g) name = none → Made o ob → P (createHeap h g name ob)
  filter : ∀ h g f, P h → P (h.update g (Obj.mapLinks fun l => l.filter f))
  attrs : ∀ h p (f : List (Str × AVal) → List (Str × AVal)), P h → P (h.update p fun o => { o with attrs := f o.attrs })
  data : ∀ h q a b fb at', P h → h[q]? = some ⟨at', .dset b fb⟩ → b.dt = a.dt → b.shape = a.shape → SameFilters (filtersFor o a) fb → P (h.update q fun ob => { ob with body := .dset (h5Store a) fb })

/-- The computation keeps the property. -/
def Pres {α : Type} (P : Heap → Prop) (m : M α) : Prop := ∀ s, P s.heap → P (m s).2.heap

theorem Pres.pure {α : Type} {P : Heap → Prop} (a : α) : Pres P (Pure.pure a : M α) := fun _ h => h
theorem Pres.raise {α : Type} {P : Heap → Prop} (e : Exc) : Pres P (raise e : M α) := fun _ h => h
theorem Pres.lift {α : Type} {P : Heap → Prop} (r : Res α) : Pres P (liftRes r) := fun _ h => h
theorem Pres.bind {α β : Type} {P : Heap → Prop} {m : M α} {f : α → M β} (h1 : Pres P m) (h2 : ∀ a, Pres P (f a)) : Pres P (m >>= f) := by
  intro s hs
  have := h1 s hs
  rcases bind_run m f s with ⟨a, s1, e1, e2⟩ | ⟨e, s1, e1, e2⟩
  · rw [e2]; rw [e1] at this; exact h2 a s1 this
  · rw [e2]; rw [e1] at this; exact this
theorem Pres.getSt {β : Type} {P : Heap → Prop} {f : St → M β} (h : ∀ s, P s.heap → P (f s s).2.heap) : Pres P (getSt >>= f) := fun s hs => h s hs
theorem Pres.mod {P : Heap → Prop} {f : St → St} (h : ∀ s, P s.heap → P (f s).heap) : Pres P (modSt f) := fun s hs => h s hs

theorem Pres.at {α : Type} {P : Heap → Prop} {s : St} {m : M α} (hs : P s.heap) (h : Pres P m) : P (m s).2.heap := h s hs

/-- Of the elementary changes, those that make the Groups, delete links and make the canonical empty. -/
structure Base (P : Heap → Prop) : Prop where
  create : ∀ h g name ob, P h → isGroup h g = true → aget (linksOf h g) name = none → ob = ⟨[], .group []⟩ ∨ ob = canonObj → P (createHeap h g name ob)
  filter : ∀ h g f, P h → P (h.update g (Obj.mapLinks fun l => l.filter f))

theorem Elem.base {o : COpts} {P : Heap → Prop} (E : Elem o P) : Base P where
  create := fun h g name ob hP hg hn ho => E.create h g name ob hP hg hn (by rcases ho with rfl | rfl <;> constructor)
  filter := E.filter

section
variable {P : Heap → Prop} (E : Base P)
include E

theorem Base.getLink {g : Nat} {name : Str} : Pres P (getLink g name) := by
  intro s hs; unfold HS.getLink; split <;> exact hs

theorem Base.createObj {g : Nat} {name : Str} {ob : Obj} (ho : ob = ⟨[], .group []⟩ ∨ ob = canonObj) : Pres P (createObj g name ob) := by
  intro s hs
  unfold HS.createObj
  split
  · exact hs
  split
  · exact hs
  · rename_i h1 h2
    simp only [not_or, Bool.not_eq_true', Bool.not_eq_false, Option.not_isSome_iff_eq_none] at h2
    obtain ⟨_, h3, h4⟩ := h2
    refine E.create s.heap g name ob hs (by simpa using h3) ?_ ho
    unfold hlook at h4
    split at h4
    · cases h4
    · simpa using h4

theorem Base.createGroup {g : Nat} {name : Str} : Pres P (createGroup g name) := Base.createObj E (Or.inl rfl)

theorem Base.unlink {g : Nat} {name : Str} : Pres P (unlink g name) := by
  intro s hs
  unfold HS.unlink
  split
  · exact hs
  split
  · exact hs
  · exact E.filter _ _ _ hs

theorem Base.createPath (cs : List Str) : ∀ g, Pres P (createPath g cs) := by
  induction cs with
  | nil => intro g; exact Pres.raise _
  | cons c r ih =>
    intro g
    cases r with
    | nil => exact Base.createGroup E
    | cons d r =>
      refine Pres.bind (Base.getLink E) ?_
      intro q
      cases q with
      | some g' => exact ih g'
      | none => exact Pres.bind (Base.createGroup E) ih

theorem Base.unlinkPath (cs : List Str) : ∀ g, Pres P (unlinkPath g cs) := by
  induction cs with
  | nil => intro g; exact Pres.raise _
  | cons c r ih =>
    intro g
    cases r with
    | nil => exact Base.unlink E
    | cons d r =>
      refine Pres.bind (Base.getLink E) ?_
      intro q
      cases q with
      | some g' => exact ih g'
      | none => exact Pres.raise _

theorem Base.ensureRefs {x : Ctx} : Pres P (ensureRefs x) := by
  unfold HS.ensureRefs
  refine Pres.getSt ?_
  intro s hs
  cases s.refs with
  | some r => exact hs
  | none =>
    dsimp only
    cases resolve s.heap 0 (refsComps x.o) with
    | none =>
      refine Pres.at hs ?_
      exact Pres.bind (Base.createPath E _ 0) fun r => Pres.bind (Pres.mod fun _ h => h) fun _ => Pres.pure _
    | some r =>
      dsimp only
      split
      · refine Pres.at hs ?_
        exact Pres.bind (Pres.mod fun _ h => h) fun _ => Pres.pure _
      · refine Pres.at hs ?_
        exact Pres.bind (Base.unlinkPath E _ 0) fun _ => Pres.bind (Base.createPath E _ 0) fun r => Pres.bind (Pres.mod fun _ h => h) fun _ => Pres.pure _

theorem Base.ensureCanon {r : Nat} : Pres P (ensureCanon r) := by
  unfold HS.ensureCanon
  refine Pres.getSt ?_
  intro s hs
  have mk : Pres P (do let c ← HS.createObj r p!"a" canonObj; modSt fun s => { s with canon := some c }; Pure.pure c : M Nat) :=
    Pres.bind (Base.createObj E (Or.inr rfl)) fun _ => Pres.bind (Pres.mod fun _ h => h) fun _ => Pres.pure _
  cases s.canon with
  | some r => exact hs
  | none =>
    dsimp only
    cases hlook s.heap r p!"a" with
    | none => exact mk s hs
    | some c =>
      dsimp only
      cases s.heap[c]? with
      | none => exact mk s hs
      | some ob =>
        refine Pres.at hs (Pres.bind (Pres.lift _) ?_)
        intro b
        cases b with
        | true => exact Pres.bind (Pres.mod fun _ h => h) fun _ => Pres.pure _
        | false => exact Pres.bind (Base.unlink E) fun _ => mk

omit E in
theorem Pres.drawName {x : Ctx} {r : Nat} (n : Nat) : Pres P (drawName x r n) := by
  induction n with
  | zero => exact Pres.raise _
  | succ n ih =>
    unfold HS.drawName
    refine Pres.getSt ?_
    intro s hs
    refine Pres.at hs (Pres.bind (Pres.mod fun _ h => h) ?_)
    intro _
    split
    · exact ih
    · exact Pres.pure _

theorem Base.nextName {x : Ctx} : Pres P (nextName x) := by
  unfold HS.nextName
  refine Pres.getSt ?_
  intro s hs
  split
  · refine Pres.at hs ?_
    exact Pres.bind (Pres.mod fun _ h => h) fun _ => Pres.pure _
  · refine Pres.at hs ?_
    exact Pres.bind (Base.ensureRefs E) fun r => Pres.bind (Base.ensureCanon E) fun _ => Pres.drawName _

theorem Base.getGroup {g : Nat} {name : Str} : Pres P (getGroup g name) := by
  unfold HS.getGroup
  refine Pres.bind (Base.getLink E) fun q => ?_
  cases q with
  | none => exact Base.createGroup E
  | some q =>
    refine Pres.getSt ?_
    intro s hs
    split
    · exact hs
    · refine Pres.at hs ?_
      exact Pres.bind (Base.unlink E) fun _ => Base.createGroup E

end

section
variable {o : COpts} {P : Heap → Prop} (E : Elem o P)
include E

theorem Pres.createObj {g : Nat} {name : Str} {ob : Obj} (ho : Made o ob) : Pres P (createObj g name ob) := by
  intro s hs
  unfold HS.createObj
  split
  · exact hs
  split
  · exact hs
  · rename_i h1 h2
    simp only [not_or, Bool.not_eq_true', Bool.not_eq_false, Option.not_isSome_iff_eq_none] at h2
    obtain ⟨_, h3, h4⟩ := h2
    refine E.create s.heap g name ob hs (by simpa using h3) ?_ ho
    unfold hlook at h4
    split at h4
    · cases h4
    · simpa using h4

theorem Pres.getLink {g : Nat} {name : Str} : Pres P (getLink g name) := Base.getLink E.base
theorem Pres.createGroup {g : Nat} {name : Str} : Pres P (createGroup g name) := Base.createGroup E.base
theorem Pres.createDset {g : Nat} {name : Str} {a : Arr} : Pres P (createDset g name a (filtersFor o a)) := Pres.createObj E (.dset a)
theorem Pres.unlink {g : Nat} {name : Str} : Pres P (unlink g name) := Base.unlink E.base
theorem Pres.createPath (cs : List Str) : ∀ g, Pres P (createPath g cs) := Base.createPath E.base cs
theorem Pres.unlinkPath (cs : List Str) : ∀ g, Pres P (unlinkPath g cs) := Base.unlinkPath E.base cs
theorem Pres.ensureRefs {x : Ctx} : Pres P (ensureRefs x) := Base.ensureRefs E.base
theorem Pres.ensureCanon {r : Nat} : Pres P (ensureCanon r) := Base.ensureCanon E.base
theorem Pres.nextName {x : Ctx} : Pres P (nextName x) := Base.nextName E.base

theorem Pres.setAttrs {p : Nat} {new : List (Str × AIn)} {d : Bool} : Pres P (setAttrsM p new d) := by
  intro s hs
  unfold setAttrsM
  cases hp : s.heap[p]? with
  | none => exact hs
  | some o =>
    have := E.attrs s.heap p (fun l => (setAttributesAll l new d).2) hs
    unfold Heap.update at this
    rw [hp] at this
    exact this

theorem Pres.modifyAttr {p : Nat} {k : Str} {v : AVal} : Pres P (modifyAttr p k v) := fun _ hs => E.attrs _ p (fun l => aput l k v) hs
theorem Pres.deleteAttr {p : Nat} {k : Str} : Pres P (deleteAttr p k) := fun _ hs => E.attrs _ p (fun l => adel l k) hs

theorem Pres.putDataset {g : Nat} {name : Str} {a : Arr} : Pres P (putDataset g name a (filtersFor o a)) := by
  unfold HS.putDataset
  refine Pres.getSt ?_
  intro s hs
  have cr : Pres P (HS.createDset g name a (filtersFor o a)) := Pres.createDset E
  have rep : Pres P (do HS.unlink g name; HS.createDset g name a (filtersFor o a) : M Nat) := Pres.bind (Pres.unlink E) fun _ => cr
  cases (if nameOk name = true then hlook s.heap g name else none) with
  | none => exact cr s hs
  | some q =>
    dsimp only
    cases hq : s.heap[q]? with
    | none =>
      dsimp only
      split
      · exact cr s hs
      · exact rep s hs
    | some ob =>
      obtain ⟨at', b⟩ := ob
      cases b with
      | group l =>
        dsimp only
        split
        · exact cr s hs
        · exact rep s hs
      | dset b fb =>
        dsimp only
        split
        · exact rep s hs
        · rename_i hne
          simp only [not_or, Decidable.not_not] at hne
          obtain ⟨n1, n2, n3, n4, n5⟩ := hne
          cases hf : (filtersFor o a).opts with
          | none => exact cr s hs
          | some op =>
            dsimp only
            split
            · exact rep s hs
            · rename_i hop
              refine E.data s.heap q a b fb at' hs hq n1 n2 ⟨n3, n4, n5, ?_⟩
              rw [hf]
              exact ⟨rfl, by simpa using hop⟩

end

section
variable {x : Ctx} {P : Heap → Prop} (E : Elem x.o P)
include E

theorem Pres.writeNp {g : Nat} {name : Str} {c : Cont} {a : Arr} {ts : Str} : Pres P (writeNp x g name c a ts) := by
  unfold HS.writeNp
  split
  · exact Pres.raise _
  split
  · exact Pres.pure _
  exact Pres.bind (Pres.lift _) fun _ => Pres.bind (Pres.putDataset E) fun _ => Pres.bind (Pres.setAttrs E) fun _ => Pres.pure _

theorem Pres.setH5Path {p : Nat} {b : Res Bytes} : Pres P (setH5Path x p b) := by
  unfold HS.setH5Path
  split
  · exact Pres.bind (Pres.lift _) fun _ => Pres.modifyAttr E
  · exact Pres.deleteAttr E

theorem Pres.writeElems {wr : Wr} (hw : ∀ g gn n v, Pres P (wr g gn n v)) {r c : Nat} (l : List Val) : Pres P (writeElems x wr r c l) := by
  induction l with
  | nil => exact Pres.pure _
  | cons v l ih =>
    refine Pres.bind (Pres.nextName E) fun nm => Pres.bind (hw _ _ _ _) fun ob => ?_
    cases ob with
    | none => exact Pres.bind ih fun _ => Pres.pure _
    | some p => exact Pres.bind (Pres.setH5Path E) fun _ => Pres.bind ih fun _ => Pres.pure _

theorem Pres.writeNpObj {wr : Wr} (hw : ∀ g gn n v, Pres P (wr g gn n v)) {g : Nat} {name : Str} {c : Cont} {shape : List Nat} {elems : List Val}
    {ts : Str} : Pres P (writeNpObj x wr g name c shape elems ts) := by
  unfold HS.writeNpObj
  refine Pres.bind ?_ fun _ => Pres.bind (Pres.putDataset E) fun _ => Pres.bind (Pres.setAttrs E) fun _ => Pres.pure _
  split
  · exact Pres.pure _
  · refine Pres.bind ?_ fun _ => Pres.pure _
    exact Pres.bind (Pres.ensureRefs E) fun _ => Pres.bind (Pres.ensureCanon E) fun _ => Pres.writeElems E hw _

theorem Pres.getGroup {g : Nat} {name : Str} : Pres P (getGroup g name) := Base.getGroup E.base

omit E in
theorem Pres.writeItems (E : Elem x.o P) {wr : Wr} (hw : ∀ g gn n v, Pres P (wr g gn n v)) {g : Nat} {gn : Str} (l : List (Str × Val)) : Pres P (writeItems x wr g gn l) := by
  induction l with
  | nil => exact Pres.pure _
  | cons kv l ih =>
    obtain ⟨k, v⟩ := kv
    refine Pres.bind (hw _ _ _ _) fun ob => ?_
    cases ob with
    | none => exact ih
    | some p => exact Pres.bind (Pres.setH5Path E) fun _ => ih

theorem Pres.writeDict {wr : Wr} (hw : ∀ g gn n v, Pres P (wr g gn n v)) {g : Nat} {gn name : Str} {keys vals : List Val} {struct : Bool} {ts : Str} :
    Pres P (writeDict x wr g gn name keys vals struct ts) := by
  unfold HS.writeDict
  refine Pres.bind (Pres.getGroup E) fun g2 => Pres.bind (Pres.setAttrs E) fun _ => Pres.bind ?_ fun _ => Pres.bind ?_ fun _ => Pres.bind (Pres.writeItems E hw _) fun _ => Pres.pure _
  · split
    · exact fun s hs => E.filter _ _ _ hs
    · exact Pres.pure _
  · split
    · exact Pres.lift _
    · exact Pres.pure _

omit E in
theorem Pres.writeFields (E : Elem x.o P) {wr : Wr} (hw : ∀ g gn n v, Pres P (wr g gn n v)) {g : Nat} {gn : Str} {ot : Bool} (l : List (Str × Val)) :
    Pres P (writeFields x wr g gn ot l) := by
  induction l with
  | nil => exact Pres.pure _
  | cons kv l ih =>
    obtain ⟨k, v⟩ := kv
    refine Pres.bind (hw _ _ _ _) fun ob => ?_
    cases ob with
    | none => exact ih
    | some p => exact Pres.bind (Pres.setAttrs E) fun _ => ih

theorem Pres.dropFailed {g : Nat} {name : Str} {e : Exc} : Pres P (dropFailed g name e) := fun s hs => Pres.unlink E s hs

theorem Pres.writeStruct {wr : Wr} (hw : ∀ g gn n v, Pres P (wr g gn n v)) {g : Nat} {gn name : Str} {c : Cont} {shape : List Nat} {names : List Str}
    {types : List FT} {elems : List Val} {ts : Str} : Pres P (writeStruct x wr g gn name c shape names types elems ts) := by
  unfold HS.writeStruct
  split
  · exact Pres.raise _
  split
  · exact Pres.pure _
  refine Pres.bind (Pres.lift _) fun esc => ?_
  split
  · exact Pres.bind (Pres.putDataset E) fun _ => Pres.bind (Pres.setAttrs E) fun _ => Pres.pure _
  split
  · refine Pres.bind (Pres.getGroup E) fun g2 => Pres.bind ?_ fun _ => Pres.bind (Pres.writeFields E hw _) fun _ => Pres.bind (Pres.setAttrs E) fun _ => Pres.pure _
    split
    · exact fun s hs => E.filter _ _ _ hs
    · exact Pres.pure _
  · split
    · exact Pres.dropFailed E
    · exact Pres.bind (Pres.putDataset E) fun _ => Pres.bind (Pres.setAttrs E) fun _ => Pres.pure _

theorem Pres.writeData (n : Nat) : ∀ g gn name v, Pres P (writeData x n g gn name v) := by
  induction n with
  | zero => intro g gn name v; exact Pres.raise _
  | succ n ih =>
    intro g gn name v
    have leaf : ∀ v, Pres P (match leafOf v with | some (c, a) => HS.writeNp x g name c a (tsOf v) | none => HS.raise .notImplemented : M (Option Nat)) := by
      intro v
      cases leafOf v with
      | none => exact Pres.raise _
      | some ca => obtain ⟨c, a⟩ := ca; exact Pres.writeNp E
    cases v with
    | npObj c shape elems => exact Pres.writeNpObj E ih
    | seq k elems => exact Pres.writeNpObj E ih
    | dict k keys vals => exact Pres.writeDict E ih
    | record k vals => exact Pres.writeDict E ih
    | npStruct c shape names types elems => exact Pres.writeStruct E ih
    | none => exact leaf .none
    | ellipsis => exact leaf .ellipsis
    | notImplemented => exact leaf .notImplemented
    | bool b => exact leaf (.bool b)
    | int i => exact leaf (.int i)
    | float b => exact leaf (.float b)
    | complex a b => exact leaf (.complex a b)
    | str s => exact leaf (.str s)
    | bytes b => exact leaf (.bytes b)
    | bytearray b => exact leaf (.bytearray b)
    | np c a => exact leaf (.np c a)
    | dtypeObj s => exact leaf (.dtypeObj s)
    | other => exact leaf .other

theorem Pres.writeOne {n : Nat} {gt : Str × Str} {v : Val} : Pres P (writeOne x n gt v) := by
  refine Pres.bind ?_ fun g => Pres.writeData E _ _ _ _ _
  intro s hs
  unfold requireGroup
  split
  · cases resolve s.heap 0 (commonComps gt.1) with
    | none => exact Pres.createPath E _ _ s hs
    | some g => dsimp only; split <;> exact hs
  · exact hs

theorem Pres.writeMany {n : Nat} (l : List ((Str × Str) × Val)) : Pres P (writeMany x n l) := by
  induction l with
  | nil => exact Pres.pure _
  | cons a l ih =>
    obtain ⟨gt, v⟩ := a
    exact Pres.bind (Pres.writeOne E) fun _ => ih

omit E in
theorem Pres.runFile {α : Type} {F : FileS} {m : M α} (h : Pres P m) (hF : P F.st.heap) : P (runFile F m).2.st.heap := by
  unfold HS.runFile
  dsimp only
  split
  · exact hF
  · exact h _ hF

theorem Pres.writes {n : Nat} {mdict : List (PathArg × Val)} {F : FileS} (hF : P F.st.heap) : P (fileWrites x n mdict F).2.st.heap := by
  unfold fileWrites
  split
  · exact hF
  cases checkItems x.o.refsPath mdict with
  | error e => exact hF
  | ok tw =>
    dsimp only
    split
    · exact hF
    · exact Pres.runFile (Pres.writeMany E _) hF

theorem Pres.del {p : PathArg} {F : FileS} (hF : P F.st.heap) : P (fileDel p F).2.st.heap := by
  unfold fileDel
  split
  · exact hF
  cases processPath p with
  | error e => exact hF
  | ok gt =>
    dsimp only
    split
    · exact hF
    cases pJoin [gt.1, gt.2] with
    | error e => exact hF
    | ok j => exact Pres.runFile (Pres.unlinkPath E _ _) hF

end

/-- Names in a Group are different. -/
def KeysOk (h : Heap) : Prop := ∀ p, (akeys (linksOf h p)).Nodup

theorem aget_none_akeys {α : Type} {l : List (Str × α)} {k : Str} : aget l k = none ↔ k ∉ akeys l := by
  induction l with
  | nil => simp [aget, akeys]
  | cons a r ih =>
    unfold aget
    split
    · rename_i h; simp [akeys, h]
    · rename_i h
      rw [ih]
      simp [akeys, Ne.symm h]

theorem linksOf_update_mapLinks {h : Heap} {g : Nat} {f : List (Str × Nat) → List (Str × Nat)} (p : Nat) :
    linksOf (h.update g (Obj.mapLinks f)) p = if p = g ∧ isGroup h g = true then f (linksOf h p) else linksOf h p := by
  unfold linksOf
  rw [getElem?_update]
  by_cases hp : p = g
  · subst hp
    rw [if_pos rfl]
    unfold isGroup
    cases h[p]? with
    | none => simp
    | some o =>
      obtain ⟨at', b⟩ := o
      cases b <;> simp [Obj.mapLinks]
  · simp [hp]

theorem linksOf_update_body {h : Heap} {g : Nat} {f : Obj → Obj} (hf : ∀ o, h[g]? = some o → (linksOf [f o] 0) = linksOf [o] 0) (p : Nat) :
    linksOf (h.update g f) p = linksOf h p := by
  unfold linksOf at *
  rw [getElem?_update]
  by_cases hp : p = g
  · subst hp
    rw [if_pos rfl]
    cases hq : h[p]? with
    | none => rfl
    | some o => exact hf o hq
  · rw [if_neg hp]

theorem keysOk_elem (o : COpts) : Elem o KeysOk where
  create := by
    intro h g name o hP hg hn ho p
    replace ho := ho.links
    have : linksOf (createHeap h g name o) p = if p = h.length then [] else if p = g then linksOf h p ++ [(name, h.length)] else linksOf h p := by
      unfold linksOf
      rw [getElem?_createHeap]
      by_cases h1 : p = h.length
      · rw [if_pos h1, if_pos h1]; exact ho
      · rw [if_neg h1, if_neg h1]
        unfold isGroup at hg
        by_cases h2 : p = g
        · subst h2
          cases hq : h[p]? with
          | none => rw [hq] at hg; cases hg
          | some ob =>
            obtain ⟨at', b⟩ := ob
            rw [hq] at hg
            cases b with
            | dset _ _ => cases hg
            | group l => simp [Obj.mapLinks]
        · simp [h2]
    rw [this]
    split
    · simp [akeys]
    split
    · rename_i h2
      subst h2
      have := aget_none_akeys.mp hn
      simp only [akeys, List.map_append, List.map_cons, List.map_nil]
      rw [List.nodup_append]
      refine ⟨hP p, by simp, ?_⟩
      rintro a ha b hb rfl
      simp at hb
      subst hb
      exact this ha
    · exact hP p
  filter := by
    intro h g f hP p
    rw [linksOf_update_mapLinks]
    split
    · exact ((List.filter_sublist (p := f) (l := linksOf h p)).map _).nodup (hP p)
    · exact hP p
  attrs := by
    intro h p f hP q
    rw [linksOf_update_body]
    · exact hP q
    · intro o _; obtain ⟨at', b⟩ := o; cases b <;> rfl
  data := by
    intro h q a b fb at' hP hq _ _ _ p
    rw [linksOf_update_body]
    · exact hP p
    · intro o ho
      rw [hq] at ho; cases ho
      rfl

end HS
