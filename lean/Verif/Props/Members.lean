import Verif.Lemmas.Members
import Verif.Props.Limit
/-
Groups read as dicts: C77.
-/
namespace HS
open Spec

/-- C77. Reading a Group that is marked as a dict (or OrderedDict or Counter) with the items stored under their keys: the keys and values are exactly those of the members that
can be read (with a recursion limit less by one, reading the dict itself being one call), apart from the Group of the references.  What cannot be read is left out. -/
theorem C77_dict (x : Ctx) {n : Nat} {F : FileS} {p : PathArg} {ns : List Str} (ha : Addr p ns) {q : Nat} (hq : LPath F.st.heap ns q) {attrs : List (Str × AVal)}
    {links : List (Str × Nat)} (hob : F.st.heap[q]? = some ⟨attrs, .group links⟩) {k : DictKind} (ht : StringAttr attrs p!"Python.Type" k.typeString)
    (hst : ¬ StringAttr attrs p!"Python.dict.StoredAs" p!"keys_values")
    (hkt : ∀ s, StringAttr attrs p!"Python.dict.key_str_types" s → ∀ c ∈ s, c ∈ p!"tbSU") {v : Val} (hr : fileRead x (n + 1) p F = .ok v) :
    ∃ keys vals, v = .dict k keys vals ∧ KeyedMembers x n F.st.heap ns keys vals := by
  obtain ⟨pf, mf, kst, m, h1, h2, rfl⟩ := readData_dict hob ht hst (fileRead_gives ha hq hr)
  have hkst : ∀ t, kst = some t → ∀ c ∈ t, c ∈ p!"tbSU" := by
    rintro t rfl
    exact hkt t (stringAttr_iff.mp h1)
  obtain ⟨g1, _, g3, g4⟩ := items_members hq hob _ pf mf (fun i t key => by
      split
      · split
        · exact keyConvert_of
        · intro h; cases h; exact Or.inl (.str t)
      · intro h; cases h; exact Or.inl (.str t)) (fun t => ∃ b, utf8Enc t = .ok b) (fun i t => by
      rintro ⟨b, hb⟩
      split
      · rename_i pf' t' 
        split
        · rename_i hi
          refine keyConvert_some (hkst _ rfl _ ?_) hb
          rw [List.getD_eq_getElem?_getD, List.getElem?_eq_getElem hi.1]
          exact List.getElem_mem hi.1
        · exact ⟨_, rfl⟩
      · exact ⟨_, rfl⟩) h2
  exact ⟨_, _, rfl, (zip_maps m).1, g1, g3, g4⟩

/-- C77. The same if the types of the keys are not stored: the keys are `str`, the unescaped names of the members that can be read. -/
theorem C77_texts (x : Ctx) {n : Nat} {F : FileS} {p : PathArg} {ns : List Str} (ha : Addr p ns) {q : Nat} (hq : LPath F.st.heap ns q) {attrs : List (Str × AVal)}
    {links : List (Str × Nat)} (hob : F.st.heap[q]? = some ⟨attrs, .group links⟩) {k : DictKind} (ht : StringAttr attrs p!"Python.Type" k.typeString)
    (hst : ¬ StringAttr attrs p!"Python.dict.StoredAs" p!"keys_values") (hkt : ∀ s, ¬ StringAttr attrs p!"Python.dict.key_str_types" s) {v : Val}
    (hr : fileRead x (n + 1) p F = .ok v) :
    ∃ texts vals, v = .dict k (texts.map Val.str) vals ∧ Members x n F.st.heap ns texts vals := by
  obtain ⟨pf, mf, kst, m, h1, h2, rfl⟩ := readData_dict hob ht hst (fileRead_gives ha hq hr)
  cases kst with
  | some s => exact absurd (stringAttr_iff.mp h1) (hkt s)
  | none =>
    have h3 : m = mergeItems (readItems (readData x.o (viewOf F.st.heap) (exclOf x.o F.st.heap) n) (exclOf x.o F.st.heap) links (fun _ uk => .ok (.str uk)) 0
        (dictFields pf mf links)) := by rw [h2]; cases pf <;> rfl
    clear h2
    obtain ⟨g1, g2, g3, g4⟩ := items_members hq hob (fun _ uk => .ok (.str uk)) pf mf (fun i t key h => by cases h; exact Or.inl (.str t)) (fun _ => True)
      (fun i t _ => ⟨_, rfl⟩) h3
    obtain ⟨texts, ht⟩ : ∃ texts : List Str, m.map (·.1) = texts.map Val.str := by
      clear h3 g1 g3 g4 hr
      generalize m.map (·.1) = l at g2
      induction l with
      | nil => exact ⟨[], rfl⟩
      | cons a l ih =>
        obtain ⟨r, hr⟩ := ih (fun k hk => g2 k (by simp [hk]))
        obtain ⟨_, t, e⟩ := g2 a (by simp)
        cases e
        exact ⟨t :: r, by rw [hr]; rfl⟩
    have hkey : ∀ s t, KeyOf (.str s) t → s = t := by
      intro s t h
      rcases h with h | ⟨b, _, h⟩
      · cases h; rfl
      · cases h
    refine ⟨texts, m.map (·.2), by rw [ht], ?_, ?_, ?_, ?_⟩
    · have := (zip_maps m).1
      rw [ht, List.length_map] at this
      exact this
    · rw [ht, List.pairwise_map] at g1
      refine g1.imp ?_
      rintro a b hab rfl
      exact hab (Or.inl ⟨a, .str a, .str a⟩)
    · intro i t w e1 e2
      obtain ⟨t', k1, k2⟩ := g3 i (.str t) w (by rw [ht, List.getElem?_map, e1]; rfl) e2
      rw [hkey _ _ k1]
      exact k2
    · intro t w hm
      obtain ⟨key, k1, k2⟩ := g4 t w hm trivial
      rw [ht] at k1
      obtain ⟨s, hs, rfl⟩ := List.mem_map.mp k1
      rw [← hkey _ _ k2]
      exact hs

/-- C77. The same for structs of MATLAB if the option structs_as_dicts is set. -/
theorem C77_struct (x : Ctx) {n : Nat} {F : FileS} {p : PathArg} {ns : List Str} (ha : Addr p ns) {q : Nat} (hq : LPath F.st.heap ns q) {attrs : List (Str × AVal)}
    {links : List (Str × Nat)} (hob : F.st.heap[q]? = some ⟨attrs, .group links⟩) (ht : ∀ s, ¬ StringAttr attrs p!"Python.Type" s)
    (hm : StringAttr attrs p!"MATLAB_class" p!"struct") (ho : x.o.structsAsDicts = true) {v : Val} (hr : fileRead x (n + 1) p F = .ok v) :
    ∃ texts vals, v = .dict .dict (texts.map Val.str) vals ∧ Members x n F.st.heap ns texts vals := by
  have hr := readData_untyped hob ht (fileRead_gives ha hq hr)
  have va : ∀ a : Str, a ≠ p!"H5PATH" → aget (Obj.view ⟨attrs, .group links⟩).attrs a = aget attrs a := fun a ha => aget_view ⟨attrs, .group links⟩ a ha
  unfold readNp at hr
  rw [va _ (by decide), va _ (by decide), va _ (by decide), va _ (by decide), va _ (by decide)] at hr
  obtain ⟨_, _, hr⟩ := res_bind_ok.mp hr
  obtain ⟨_, _, hr⟩ := res_bind_ok.mp hr
  obtain ⟨_, _, hr⟩ := res_bind_ok.mp hr
  obtain ⟨_, _, hr⟩ := res_bind_ok.mp hr
  obtain ⟨mc, h5, hr⟩ := res_bind_ok.mp hr
  rw [stringAttr_iff.mpr hm] at h5
  cases h5
  dsimp only [Obj.view] at hr
  obtain ⟨sd, h6, hr⟩ := res_bind_ok.mp hr
  rw [if_pos ⟨rfl, ho⟩] at hr
  cases hr
  refine ⟨akeys sd, sd.map (·.2), ?_, fields_members hq hob h6⟩
  unfold akeys
  rw [List.map_map]
  rfl

/-- C77. A Group without any metadata is read as a structured array whose fields are those of its members that can be read. -/
theorem C77_fields (x : Ctx) {n : Nat} {F : FileS} {p : PathArg} {ns : List Str} (ha : Addr p ns) {q : Nat} (hq : LPath F.st.heap ns q)
    {links : List (Str × Nat)} (hob : F.st.heap[q]? = some ⟨[], .group links⟩) {v : Val} (hr : fileRead x (n + 1) p F = .ok v) :
    ∃ shape names types cols, v = .npStruct .ndarray shape names types cols ∧ names.Nodup ∧ ∀ t, t ∈ names ↔ ∃ w, Member x n F.st.heap ns t w := by
  have hr := readData_untyped hob (by rintro s (h | ⟨b, _, h⟩) <;> cases h) (fileRead_gives ha hq hr)
  unfold readNp at hr
  rw [show aget (Obj.view ⟨[], .group links⟩).attrs p!"Python.Type" = none from rfl, show aget (Obj.view ⟨[], .group links⟩).attrs p!"Python.numpy.UnderlyingType" = none from rfl,
    show aget (Obj.view ⟨[], .group links⟩).attrs p!"Python.numpy.Container" = none from rfl, show aget (Obj.view ⟨[], .group links⟩).attrs p!"Python.Fields" = none from rfl,
    show aget (Obj.view ⟨[], .group links⟩).attrs p!"MATLAB_class" = none from rfl, show aget (Obj.view ⟨[], .group links⟩).attrs p!"MATLAB_fields" = none from rfl] at hr
  dsimp only [attrToString, attrToStrings, bind, Except.bind, Obj.view] at hr
  cases h6 : readFields (readData x.o (viewOf F.st.heap) (exclOf x.o F.st.heap) n) (exclOf x.o F.st.heap) (sortedLinks links) [] with
  | error e => rw [h6] at hr; cases hr
  | ok sd =>
    rw [h6] at hr
    dsimp only at hr
    rw [if_neg (fun h => by cases h.1), show groupNames none none = .ok none from rfl] at hr
    dsimp only at hr
    generalize isMulti (looksMulti (viewOf F.st.heap)) (exclOf x.o F.st.heap) (sortedLinks links) = mu at hr
    cases h7 : buildStruct mu sd none with
    | error e => rw [h7] at hr; cases hr
    | ok d =>
      rw [h7] at hr
      have hM := fields_members (x := x) hq hob h6
      unfold buildStruct at h7
      dsimp only at h7
      obtain ⟨arrs, _, h7⟩ := res_bind_ok.mp h7
      obtain ⟨_, _, h7⟩ := res_bind_ok.mp h7
      split at h7
      · cases h7
      · split at h7
        · cases h7
        cases h7
        cases hr
        refine ⟨_, _, _, _, rfl, (sortStr_perm _).nodup_iff.mpr hM.nodup, fun t => ?_⟩
        rw [(sortStr_perm _).mem_iff]
        constructor
        · intro h
          obtain ⟨i, hi, e⟩ := List.getElem_of_mem h
          have hi' : i < (sd.map (·.2)).length := by rw [← hM.len]; exact hi
          exact ⟨_, hM.each i t _ (by rw [List.getElem?_eq_getElem hi, e]) (List.getElem?_eq_getElem hi')⟩
        · rintro ⟨w, hw⟩
          exact hM.all t w hw

/-- A member is what reading its path gives. -/
theorem C77_member (x : Ctx) {n : Nat} {F : FileS} {p : PathArg} {ns : List Str} {name t : Str} (ha : Addr p (ns ++ [name])) (ht : unescapePath name = .ok t) {q : Nat}
    (hq : LPath F.st.heap (ns ++ [name]) q) (hx : ¬ IsRefsGroup x F.st.heap q) {v : Val} (hr : fileRead x n p F = .ok v) : Member x n F.st.heap ns t v :=
  ⟨name, q, hq, hx, ht, fileRead_gives ha hq hr⟩

/-- C77. So in terms of reading alone: each item of the dict read at `ns` is what a member of its name reads as by itself, and a member that can be read by itself is there. -/
theorem C77_alone (x : Ctx) {n : Nat} {F : FileS} {p : PathArg} {ns : List Str} (ha : Addr p ns) {q : Nat} (hq : LPath F.st.heap ns q) {attrs : List (Str × AVal)}
    {links : List (Str × Nat)} (hob : F.st.heap[q]? = some ⟨attrs, .group links⟩) {k : DictKind} (ht : StringAttr attrs p!"Python.Type" k.typeString)
    (hst : ¬ StringAttr attrs p!"Python.dict.StoredAs" p!"keys_values") (hkt : ∀ s, ¬ StringAttr attrs p!"Python.dict.key_str_types" s) {v : Val}
    (hr : fileRead x (n + 1) p F = .ok v) :
    ∃ (texts : List Str) (vals : List Val), v = .dict k (texts.map Val.str) vals ∧ texts.Nodup ∧ texts.length = vals.length ∧
      (∀ (i : Nat) (t : Str) (w : Val), texts[i]? = some t → vals[i]? = some w → ∃ name, unescapePath name = .ok t ∧ (∃ r, LPath F.st.heap (ns ++ [name]) r) ∧
        ∀ p' w', Addr p' (ns ++ [name]) → fileRead x n p' F = .ok w' → w' = w) ∧
      (∀ (p' : PathArg) (name t : Str) (w : Val), Addr p' (ns ++ [name]) → unescapePath name = .ok t → (∀ r, LPath F.st.heap (ns ++ [name]) r → ¬ IsRefsGroup x F.st.heap r) →
        fileRead x n p' F = .ok w → t ∈ texts) := by
  obtain ⟨texts, vals, rfl, hM⟩ := C77_texts x ha hq hob ht hst hkt hr
  refine ⟨texts, vals, rfl, hM.nodup, hM.len, ?_, ?_⟩
  · intro i t w h1 h2
    obtain ⟨name, r, h3, _, h4, h5⟩ := hM.each i t w h1 h2
    refine ⟨name, h4, ⟨r, h3⟩, fun p' w' ha' hr' => ?_⟩
    have := (fileRead_gives ha' h3 hr').symm.trans h5
    cases this; rfl
  · intro p' name t w ha' hn hx hr'
    obtain ⟨r, hr2⟩ := read_exists hr' ha'
    exact hM.all t w ⟨name, r, hr2, hx r hr2, hn, fileRead_gives ha' hr2 hr'⟩

/-- A file with a dict of two members, of which one cannot be read (its type is no text), a Group without metadata with the same members, and a struct. -/
def exPartly (attrs : List (Str × AVal)) : FileS := FileS.new
  [⟨[], .group [(p!"x", 1)]⟩, ⟨attrs, .group [(p!"a\\x41", 2), (p!"b", 3)]⟩, ⟨[], .dset ⟨.i64, [], [.num 7]⟩ ⟨none, none, false, false, false⟩⟩,
    ⟨[(p!"Python.Type", .bytes [255])], .dset ⟨.i64, [], [.num 8]⟩ ⟨none, none, false, false, false⟩⟩] true

/-- The attributes of a dict. -/
def exDictAttrs : List (Str × AVal) := [(p!"Python.Type", .bytes p!"dict")]
/-- The attributes of a struct of MATLAB. -/
def exStructAttrs : List (Str × AVal) := [(p!"MATLAB_class", .bytes p!"struct")]
/-- Structs are read as dicts. -/
def exAsDicts : Ctx := { exX with o := { exOpts with structsAsDicts := true } }

-- The dict is read without the member that cannot be read; the key is unescaped.
example : fileRead exX 2 (.str p!"/x") (exPartly exDictAttrs) = .ok (.dict .dict [.str p!"aA"] [.np .ndarray ⟨.i64, [], [.num 7]⟩]) ∧
    raised (fileRead exX 1 (.str p!"/x/b") (exPartly exDictAttrs)) = some .unicodeError ∧
    fileRead exX 1 (.str p!"/x/a\\x41") (exPartly exDictAttrs) = .ok (.np .ndarray ⟨.i64, [], [.num 7]⟩) :=
  ⟨eq_of_isVal (by decide +kernel), by decide +kernel, eq_of_isVal (by decide +kernel)⟩

-- So is a struct, and a Group without metadata (as a structured array).
example : fileRead exAsDicts 2 (.str p!"/x") (exPartly exStructAttrs) = .ok (.dict .dict [.str p!"aA"] [.np .ndarray ⟨.i64, [], [.num 7]⟩]) ∧
    (fileRead exX 2 (.str p!"/x") (exPartly [])).isOk = true := ⟨eq_of_isVal (by decide +kernel), by decide +kernel⟩

-- The other hypotheses of the theorems hold for these files.
example : Addr (.str p!"/x") [p!"x"] ∧ (∀ a, LPath (exPartly a).st.heap [p!"x"] 1) ∧
    (∀ a, (exPartly a).st.heap[1]? = some ⟨a, .group [(p!"a\\x41", 2), (p!"b", 3)]⟩) ∧ StringAttr exDictAttrs p!"Python.Type" DictKind.dict.typeString ∧
    (¬ StringAttr exDictAttrs p!"Python.dict.StoredAs" p!"keys_values") ∧ (∀ s, ¬ StringAttr exDictAttrs p!"Python.dict.key_str_types" s) ∧
    StringAttr exStructAttrs p!"MATLAB_class" p!"struct" ∧ (∀ s, ¬ StringAttr exStructAttrs p!"Python.Type" s) := by
  refine ⟨⟨p!"/", p!"x", by decide, by decide⟩, fun a => LPath.snoc .root ?_, fun a => rfl, Or.inr ⟨_, rfl, rfl⟩, ?_, ?_, Or.inr ⟨_, rfl, rfl⟩, ?_⟩
  · show aget [(p!"x", 1)] p!"x" = some 1
    decide
  · rintro (h | ⟨b, _, h⟩) <;> cases h
  · rintro s (h | ⟨b, _, h⟩) <;> cases h
  · rintro s (h | ⟨b, _, h⟩) <;> cases h

end HS
