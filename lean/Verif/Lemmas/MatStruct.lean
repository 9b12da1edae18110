import Verif.Lemmas.Matlab
import Verif.Lemmas.RtStruct
import Verif.Spec.MatStruct
/-
Reading the structs of MATLAB.
-/
namespace HS
open Spec

/-- Reading the members: those that can be read, under their names. -/
theorem readFields_all {rd : Rd} {excl : Option Nat} {L : List (Str × Nat)} {acc : List (Str × Val)} (hn : ∀ m ∈ L, ∃ nm, unescapePath m.1 = .ok nm)
    (hd : L.Pairwise fun m m' => unescapePath m.1 ≠ unescapePath m'.1) (ha : (akeys acc).Nodup) (hx : ∀ k ∈ akeys acc, ∀ m ∈ L, unescapePath m.1 ≠ .ok k) :
    ∃ sd, readFields rd excl L acc = .ok sd ∧ (akeys sd).Nodup ∧
      ∀ nm v, (nm, v) ∈ sd ↔ (nm, v) ∈ acc ∨ ∃ m ∈ L, unescapePath m.1 = .ok nm ∧ excl ≠ some m.2 ∧ rd m.2 = .ok v := by
  induction L generalizing acc with
  | nil => exact ⟨acc, rfl, ha, fun nm v => by simp⟩
  | cons m L ih =>
    obtain ⟨k, q⟩ := m
    obtain ⟨nm, h2⟩ := hn (k, q) (by simp)
    rw [List.pairwise_cons] at hd
    have skip := ih (acc := acc) (fun m h => hn m (by simp [h])) hd.2 ha (fun k' hk' m h => hx k' hk' m (by simp [h]))
    dsimp only at h2
    rw [readFields, h2]
    show ∃ sd, (if excl = some q then _ else _) = _ ∧ _
    by_cases h1 : excl = some q
    · rw [if_pos h1]
      obtain ⟨sd, g1, g2, g3⟩ := skip
      refine ⟨sd, g1, g2, fun nm' v => ?_⟩
      rw [g3]
      constructor
      · rintro (h | ⟨m, h, h'⟩)
        · exact Or.inl h
        · exact Or.inr ⟨m, by simp [h], h'⟩
      · rintro (h | ⟨m, h, h'⟩)
        · exact Or.inl h
        · rcases List.mem_cons.mp h with e | e
          · rw [e] at h'; exact absurd h1 h'.2.1
          · exact Or.inr ⟨m, e, h'⟩
    · rw [if_neg h1]
      cases hr : rd q with
      | error e =>
        dsimp only
        obtain ⟨sd, g1, g2, g3⟩ := skip
        refine ⟨sd, g1, g2, fun nm' v => ?_⟩
        rw [g3]
        constructor
        · rintro (h | ⟨m, h, h'⟩)
          · exact Or.inl h
          · exact Or.inr ⟨m, by simp [h], h'⟩
        · rintro (h | ⟨m, h, h'⟩)
          · exact Or.inl h
          · rcases List.mem_cons.mp h with e | e
            · rw [e] at h'; rw [hr] at h'; cases h'.2.2
            · exact Or.inr ⟨m, e, h'⟩
      | ok w =>
        dsimp only
        have hfresh : nm ∉ akeys acc := fun h => hx nm h (k, q) (by simp) h2
        have hset : fieldSet acc nm w = acc ++ [(nm, w)] := by
          unfold fieldSet
          rw [if_neg (by simpa using hfresh)]
        rw [hset]
        have hak : akeys (acc ++ [(nm, w)]) = akeys acc ++ [nm] := by unfold akeys; rw [List.map_append]; rfl
        obtain ⟨sd, g1, g2, g3⟩ := ih (acc := acc ++ [(nm, w)]) (fun m h => hn m (by simp [h])) hd.2 (by
          rw [hak]
          refine List.nodup_append.mpr ⟨ha, by simp, ?_⟩
          intro a h b hb e
          rw [List.mem_singleton.mp hb] at e
          exact hfresh (e ▸ h)) (by
          intro k' hk' m hm
          rw [hak] at hk'
          rcases List.mem_append.mp hk' with h | h
          · exact hx k' h m (by simp [hm])
          · rw [List.mem_singleton.mp h]
            intro e
            exact hd.1 m hm (h2.trans e.symm))
        refine ⟨sd, g1, g2, fun nm' v => ?_⟩
        rw [g3]
        constructor
        · rintro (h | ⟨m, h, h'⟩)
          · rcases List.mem_append.mp h with h | h
            · exact Or.inl h
            · have e := List.mem_singleton.mp h
              injection e with e1 e2
              subst e1 e2
              exact Or.inr ⟨(k, q), by simp, h2, h1, hr⟩
          · exact Or.inr ⟨m, by simp [h], h'⟩
        · rintro (h | ⟨m, h, h'⟩)
          · exact Or.inl (by simp [h])
          · rcases List.mem_cons.mp h with e | e
            · rw [e, h2] at h'
              have e1 := Except.ok.inj h'.1
              have e2 : w = v := by have := h'.2.2; rw [hr] at this; exact Except.ok.inj this
              exact Or.inl (by rw [e1, e2]; simp)
            · exact Or.inr ⟨m, e, h'⟩

theorem aget_iff_mem {α : Type} {l : List (Str × α)} (h : (akeys l).Nodup) {k : Str} {v : α} : aget l k = some v ↔ (k, v) ∈ l := by
  refine ⟨aget_mem l k v, fun hm => ?_⟩
  induction l with
  | nil => cases hm
  | cons p l ih =>
    obtain ⟨k', v'⟩ := p
    have hnd : k' ∉ akeys l ∧ (akeys l).Nodup := by simpa [akeys] using h
    rw [aget]
    rcases List.mem_cons.mp hm with e | e
    · injection e with e1 e2
      rw [if_pos e1.symm, e2]
    · rw [if_neg]
      · exact ih hnd.2 e
      · rintro rfl
        exact hnd.1 (List.mem_map.mpr ⟨_, e, rfl⟩)

theorem sortedLinks_pairwise {l : List (Str × Nat)} (h : (akeys l).Nodup) : (sortedLinks l).Pairwise fun m m' => m.1 ≠ m'.1 := by
  unfold sortedLinks
  have hs : (sortStr (akeys l)).Nodup := (sortStr_perm _).nodup_iff.mpr h
  rw [List.pairwise_filterMap]
  refine hs.imp ?_
  intro a b hab m hm m' hm' e
  cases ha : aget l a with
  | none => rw [ha] at hm; cases hm
  | some q =>
    cases hb : aget l b with
    | none => rw [hb] at hm'; cases hm'
    | some q' =>
      rw [ha] at hm; rw [hb] at hm'
      cases hm; cases hm'
      exact hab e

/-- The members of a struct. -/
theorem struct_fields {members : List (Str × Nat)} (hnd : (members.map (·.1)).Nodup) (hp : ProperNames members) (rd : Rd) (excl : Option Nat) :
    ∃ sd, readFields rd excl (sortedLinks members) [] = .ok sd ∧ (akeys sd).Nodup ∧
      ∀ nm v, (nm, v) ∈ sd ↔ ∃ q, Field members nm q ∧ excl ≠ some q ∧ rd q = .ok v := by
  have hmem : ∀ m : Str × Nat, m ∈ sortedLinks members ↔ m ∈ members := by
    rintro ⟨k, q⟩
    rw [← aget_iff_mem (l := members) hnd]
    exact ⟨mem_sortedLinks, sortedLinks_mem⟩
  obtain ⟨sd, g1, g2, g3⟩ := readFields_all (rd := rd) (excl := excl) (L := sortedLinks members) (acc := [])
    (fun m hm => hp.unescape m ((hmem m).mp hm)) (by
      have := sortedLinks_pairwise (l := members) hnd
      refine List.Pairwise.imp_of_mem ?_ this
      intro a b ha hb hab e
      exact hab (hp.distinct a ((hmem a).mp ha) b ((hmem b).mp hb) e)) List.nodup_nil (by intro k hk; cases hk)
  refine ⟨sd, g1, g2, fun nm v => ?_⟩
  rw [g3]
  constructor
  · rintro (h | ⟨⟨e, q⟩, h1, h2, h3, h4⟩)
    · cases h
    · exact ⟨q, ⟨e, (hmem _).mp h1, h2⟩, h3, h4⟩
  · rintro ⟨q, ⟨e, h1, h2⟩, h3, h4⟩
    exact Or.inr ⟨(e, q), (hmem _).mpr h1, h2, h3, h4⟩

/-- Reading a struct up to making the array. -/
theorem read_matStruct {o : COpts} {V : View} {excl : Option Nat} {n p : Nat} {ob : Obj} {members : List (Str × Nat)} {order : List Str}
    (hV : V p = some ob) (hs : MatStruct ob members order) :
    readData o V excl (n + 1) p = readFields (readData o V excl n) excl (sortedLinks members) [] >>= fun sd =>
      if o.structsAsDicts = true then .ok (.dict .dict (sd.map fun p => .str p.1) (sd.map (·.2)))
      else buildStruct (isMulti (looksMulti V) excl (sortedLinks members)) sd (if aget ob.attrs p!"MATLAB_fields" = none then none else some order) >>= fun d =>
        matlabFinish p!"struct" .object false d := by
  have hc : attrToString (aget ob.attrs p!"MATLAB_class") = .ok (some p!"struct") := by
    rw [hs.cls]
    rfl
  have he : attrIsOne (aget ob.attrs p!"MATLAB_empty") = false := by
    cases h : attrIsOne (aget ob.attrs p!"MATLAB_empty") with
    | false => rfl
    | true => exact absurd (saysEmpty_iff.mpr h) hs.notEmpty
  have hg : groupNames none (aget ob.attrs p!"MATLAB_fields") = .ok (if aget ob.attrs p!"MATLAB_fields" = none then none else some order) := by
    rcases hs.order with ⟨h1, _⟩ | ⟨bs, h1, h2, h3⟩
    · rw [h1]; rfl
    · rw [h1, if_neg (by nofun)]
      have hb : bs.mapM utf8Dec = .ok bs := by
        apply mapM_ok_forall2.mpr
        clear h1 h3
        induction bs with
        | nil => exact .nil
        | cons b bs ih => exact .cons (utf8Dec_ascii b (h2 b (by simp))) (ih fun b hb => h2 b (by simp [hb]))
      have hu : bs.mapM unescapePath = .ok order := mapM_ok_forall2.mpr h3
      show ((bs.mapM utf8Dec >>= fun l => Except.ok (some l)) >>= fun r => _) = _
      rw [hb]
      show ((bs.mapM unescapePath) >>= fun l => Except.ok (some l)) = _
      rw [hu]
      rfl
  simp only [readData, hV, hs.noType]
  rw [hc]
  change readNp (looksMulti V) (readData o V excl n) o excl ob = _
  unfold readNp
  simp only [hs.noType, hs.noUnder, hs.noCont, hs.noPyFields, hs.body]
  rw [hc]
  simp only [bind, Except.bind, attrToString, attrToStrings]
  cases readFields (readData o V excl n) excl (sortedLinks members) [] with
  | error e => rfl
  | ok sd =>
    dsimp only
    by_cases ho : o.structsAsDicts = true
    · rw [if_pos ⟨trivial, ho⟩, if_pos ho]
    · rw [if_neg (fun h => ho h.2), if_neg ho, hg]
      dsimp only
      cases buildStruct (isMulti (looksMulti V) excl (sortedLinks members)) sd (if aget ob.attrs p!"MATLAB_fields" = none then none else some order) with
      | error e => rfl
      | ok d =>
        dsimp only
        rw [if_neg (by decide)]
        unfold finish
        simp only [he]
        rfl

theorem fieldType_of (vs : List Val) : FieldTypeOf vs (fieldType vs) := by
  cases vs with
  | nil => exact Or.inr ⟨rfl, Or.inl rfl⟩
  | cons v r =>
    rw [fieldType]
    cases hf : ftOf v with
    | none =>
      refine Or.inr ⟨rfl, Or.inr ?_⟩
      rintro ⟨u, hu⟩
      rw [(ftOf_iff v u).mpr (hu v (by simp))] at hf
      cases hf
    | some t =>
      dsimp only
      by_cases ha : r.all (fun w => ftOf w == some t) = true
      · rw [if_pos ha]
        refine Or.inl ⟨by simp, fun w hw => ?_⟩
        rcases List.mem_cons.mp hw with h | h
        · rw [h]; exact (ftOf_iff v t).mp hf
        · exact (ftOf_iff w t).mp (by simpa using List.all_eq_true.mp ha w h)
      · rw [if_neg ha]
        refine Or.inr ⟨rfl, Or.inr ?_⟩
        rintro ⟨u, hu⟩
        have e : u = t := by
          have := (ftOf_iff v u).mpr (hu v (by simp))
          rw [hf] at this
          exact (Option.some.inj this).symm
        subst e
        refine ha (List.all_eq_true.mpr fun w hw => ?_)
        rw [(ftOf_iff w u).mpr (hu w (by simp [hw]))]
        simp

theorem packEl_handed {vs : List Val} {t : FT} (ht : FieldTypeOf vs t) {v : Val} (hv : v ∈ vs) (hz : Sized v) : Handed t v (packEl t v) := by
  unfold packEl
  by_cases h0 : t = .base .object []
  · rw [if_pos h0]; exact .object v h0
  · rw [if_neg h0]
    rcases ht with ⟨_, ht⟩ | ⟨h, _⟩
    · have hn := ht v hv
      cases hn with
      | npObj c s e => exact .npObj c s e h0
      | npStruct c s n u e => exact .npStruct c s n u e h0
      | np c a =>
        obtain ⟨hl, hu⟩ := hz c a rfl
        dsimp only
        by_cases hs : a.shape = []
        · rw [if_pos hs]
          rw [hs] at hl
          obtain ⟨e, he⟩ := List.length_eq_one_iff.mp (show a.data.length = 1 from hl)
          obtain ⟨dt, sh, data⟩ := a
          dsimp only at hs he hu h0
          subst hs he
          unfold flat0
          dsimp only
          cases dt with
          | bytes n =>
            obtain ⟨u, rfl⟩ := hu n (Or.inl rfl) e (by simp)
            obtain ⟨k, hk⟩ := stripNul_decomp u
            have := Handed.bytes c n (stripNul u) k h0 (stripNul_last u)
            rw [← hk] at this
            exact this
          | str n =>
            obtain ⟨u, rfl⟩ := hu n (Or.inr rfl) e (by simp)
            obtain ⟨k, hk⟩ := stripNul_decomp u
            have := Handed.str c n (stripNul u) k h0 (stripNul_last u)
            rw [← hk] at this
            exact this
          | _ => exact .scalar c _ h0 rfl (fun n => ⟨nofun, nofun⟩)
        · rw [if_neg hs]
          exact .array c a h0 hs
    · exact absurd h h0

/-- The names, in the order they get. -/
theorem struct_names {members : List (Str × Nat)} {order names : List Str} (hf : FieldNames members order names) {sd : List (Str × Val)} (hsd : (akeys sd).Nodup)
    (hk : ∀ nm, nm ∈ akeys sd ↔ ∃ q, Field members nm q) {ob : Obj} (hs : MatStruct ob members order) :
    ((if aget ob.attrs p!"MATLAB_fields" = none then none else some order : Option (List Str)) = none → sortStr (akeys sd) = names) ∧
      ∀ f, (if aget ob.attrs p!"MATLAB_fields" = none then none else some order : Option (List Str)) = some f → f ++ sortStr ((akeys sd).filter fun k => !f.contains k) = names := by
  have key : order ++ sortStr ((akeys sd).filter fun k => !order.contains k) = names := by
    obtain ⟨rest, h1, h2⟩ := hf.sorted
    have hnd := hf.nodup
    rw [h1] at hnd
    obtain ⟨n1, n2, n3⟩ := List.nodup_append.mp hnd
    have hr : sortStr rest = rest := by
      have := sortStr_perm rest
      refine List.Perm.eq_of_pairwise (le := fun a b => strLt b a = false) (fun a b _ _ h1 h2 => strLt_total a b h2 h1) (sortStr_sorted rest) ?_ this
      exact h2.imp fun h => strLt_asymm _ _ h
    rw [h1]
    congr 1
    rw [← hr, sortStr_eq_iff]
    refine (List.perm_ext_iff_of_nodup (hsd.filter _) n2).mpr fun k => ?_
    rw [List.mem_filter, hk, ← hf.all, h1, List.mem_append]
    constructor
    · rintro ⟨h, h'⟩
      rcases h with h | h
      · simp [h] at h'
      · exact h
    · intro h
      refine ⟨Or.inr h, ?_⟩
      have : k ∉ order := fun h' => n3 k h' k h rfl
      simpa using this
  rcases hs.order with ⟨h1, h2⟩ | ⟨bs, h1, _⟩
  · rw [if_pos h1]
    refine ⟨fun _ => ?_, nofun⟩
    rw [h2] at key
    rw [← key, List.nil_append]
    have : (akeys sd).filter (fun k => !([] : List Str).contains k) = akeys sd := by
      apply List.filter_eq_self.mpr
      intro a _
      rfl
    rw [this]
  · rw [if_neg (by rw [h1]; nofun)]
    exact ⟨nofun, fun f hf => by cases hf; exact key⟩

/-- Reading the references to the values of a field. -/
theorem read_refColumn {o : COpts} {V : View} {excl : Option Nat} {n q : Nat} {sh oids : List Nat} (h : RefColumn V q sh oids) {vs : List Val}
    (hv : All2 (fun i v => readData o V excl n i = .ok v) oids vs) : readData o V excl (n + 1) q = .ok (.npObj .ndarray sh vs) ∧ looksMulti V q = true := by
  obtain ⟨attrs, f, h1, h2, h3⟩ := h
  clear h2
  have hrd : readDset (readData o V excl n) ⟨.ref, sh, oids.map El.ref⟩ = .ok (.obj sh vs) := by
    unfold readDset
    rw [if_pos rfl]
    have : ∀ (f : El → Res Val), (∀ q, f (.ref q) = readData o V excl n q) → (oids.map El.ref).mapM f = .ok vs := by
      intro f hf
      rw [mapM_ok_forall2]
      clear h1 h3
      induction hv with
      | nil => exact .nil
      | cons h _ ih => exact .cons (by rw [hf]; exact h) ih
    rw [this _ fun q => rfl]
    rfl
  have t := h3 p!"Python.Type" (by decide)
  have u := h3 p!"Python.numpy.UnderlyingType" (by decide)
  have c := h3 p!"Python.numpy.Container" (by decide)
  have pf := h3 p!"Python.Fields" (by decide)
  have m := h3 p!"MATLAB_class" (by decide)
  constructor
  · simp only [readData, h1, t, m]
    change readNp (looksMulti V) (readData o V excl n) o excl _ = _
    unfold readNp
    simp only [t, u, c, pf, m]
    show (readDset _ _ >>= fun d => _) = _
    rw [hrd]
    rfl
  · unfold looksMulti
    rw [h1]
    show (true && fieldMarks.all _) = true
    rw [Bool.true_and, List.all_eq_true]
    intro k hk
    rw [h3 k hk]
    rfl

theorem holdsValue_multi {V : View} {q : Nat} (h : HoldsValue V q) : looksMulti V q = false := by
  obtain ⟨⟨attrs, body⟩, h1, h2⟩ := h
  unfold looksMulti
  rw [h1]
  rcases h2 with ⟨l, h2⟩ | ⟨a, f, h2, h3⟩
  · dsimp only at h2
    rw [h2]
  · dsimp only at h2 h3
    rw [h2]
    show (a.dt == .ref && fieldMarks.all _) = false
    rcases h3 with h3 | ⟨k, hk, h3⟩
    · rw [Bool.and_eq_false_iff]
      exact Or.inl (by simpa using h3)
    · rw [Bool.and_eq_false_iff]
      refine Or.inr (List.all_eq_false.mpr ⟨k, hk, ?_⟩)
      cases hg : aget attrs k with
      | none => exact absurd hg h3
      | some v => simp

theorem matlabFinish_struct (sh : List Nat) (names : List Str) (types : List FT) (cols : List (List Val)) :
    matlabFinish p!"struct" .object false (.tab sh names types cols) = .ok (.npStruct .ndarray sh.reverse names types (cols.map (transposeData sh)).flatten) := rfl

end HS
