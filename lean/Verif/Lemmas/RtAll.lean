import Verif.Lemmas.RtTable
import Verif.Spec.Opts
/-
Round trip of dicts and of everything.
-/
namespace HS
open Spec

theorem Spec.RtOpts.optsOk {o : COpts} (h : RtOpts o) : OptsOk o := ⟨h.rev⟩

theorem escapePath_plain {s : Str} (h : PlainName s) : escapePath s = .ok s := by
  rw [escapePath_eq]
  obtain ⟨h1, h2, h3⟩ := h
  cases s with
  | nil => exact absurd rfl h1
  | cons c r =>
    have hc : (c == dot) = false := by
      cases hd : c == dot with
      | false => rfl
      | true => exact absurd (by simpa using hd) (show c ≠ dot from fun e => h2 (by rw [e]; rfl))
    rw [List.takeWhile_cons, List.dropWhile_cons, hc]
    have key : ∀ l : Str, (∀ c ∈ l, c ≠ slash ∧ c ≠ 0 ∧ c ≠ bs) → l.flatMap escChar = l := by
      intro l
      induction l with
      | nil => intro _; rfl
      | cons a l ih =>
        intro hh
        obtain ⟨g1, g2, g3⟩ := hh a (by simp)
        rw [List.flatMap_cons, ih (fun c hc => hh c (by simp [hc])), escChar, if_neg g2, if_neg g1, if_neg g3]
        rfl
    show Except.ok ([] ++ (c :: r).flatMap escChar) = _
    rw [key _ h3]
    rfl

theorem Spec.PlainName.ne_dot {s : Str} (h : PlainName s) : s ≠ [dot] := escape_ne_dot (escapePath_plain h)

theorem Spec.RtOpts.keys_ne {o : COpts} (h : RtOpts o) : o.keysName ≠ [dot] := h.names.keys
theorem Spec.RtOpts.vals_ne {o : COpts} (h : RtOpts o) : o.valuesName ≠ [dot] := h.names.vals

theorem all2_map_left {α β γ : Type} {R : γ → β → Prop} {f : α → γ} {l : List α} {r : List β} (h : All2 (fun a b => R (f a) b) l r) : All2 R (l.map f) r := by
  induction h with
  | nil => exact .nil
  | cons h1 _ ih => exact .cons h1 ih

/-- Attributes of a new dict-like that every reader looks at. -/
theorem dict_ts {o : COpts} (hm : o.pyMeta = true) {info : Option (List (Str × Nat))} {struct : Bool} {ts : Str} {attrs : List (Str × AVal)}
    (h : setAttributesAll [] (dictAttrs o info struct ts) true = (.ok (), attrs)) (b : Body) :
    attrToString (aget (Obj.view ⟨attrs, b⟩).attrs p!"Python.Type") = .ok (some ts) ∧
    ∃ mc, attrToString (aget (Obj.view ⟨attrs, b⟩).attrs p!"MATLAB_class") = .ok mc := by
  have hnd := dictAttrs_nodup o info struct ts
  rw [aget_view _ _ (by decide), aget_view _ _ (by decide)]
  have h12 : aget (dictAttrs o info struct ts) p!"Python.Type" = some (.string ts) ∧
      aget (dictAttrs o info struct ts) p!"MATLAB_class" = (if o.matlab && struct then some (.string p!"struct") else none) := by
    cases info with
    | none => exact ⟨(dictAttrs_none o hm struct ts).1, (dictAttrs_none o hm struct ts).2.1⟩
    | some l => exact ⟨(dictAttrs_some o hm l struct ts).1, (dictAttrs_some o hm l struct ts).2.1⟩
  refine ⟨fresh_string hnd h h12.1, ?_⟩
  cases hb : o.matlab && struct with
  | true => exact ⟨_, fresh_string hnd h (h12.2.trans (by rw [hb]; rfl))⟩
  | false => exact ⟨none, by dsimp only; rw [fresh_none hnd h (h12.2.trans (by rw [hb]; rfl))]; rfl⟩

/-- Items stored under keys and values. -/
theorem readDictItems_kv {o ro : COpts} (ho : RtOpts o) (hkv : KvNames o) {struct : Bool} {ts : Str} {attrs : List (Str × AVal)} {links : List (Str × Nat)} {keys vals : List Val}
    (h : setAttributesAll [] (dictAttrs o none struct ts) true = (.ok (), attrs)) {qk qv : Nat} (hqk : aget links o.keysName = some qk)
    (hqv : aget links o.valuesName = some qv) {rd : Rd} (excl : Option Nat) (hk : rd qk = .ok (.seq .tuple keys)) (hv : rd qv = .ok (.seq .tuple vals)) :
    readDictItems rd ro excl (Obj.view ⟨attrs, .group links⟩) = .ok (keys.zip vals) := by
  have hnd := dictAttrs_nodup o none struct ts
  obtain ⟨_, _, g3, g4, g5, g6⟩ := dictAttrs_none o ho.pyMeta struct ts
  unfold readDictItems
  dsimp only [Obj.view]
  have v : ∀ k, k ≠ p!"H5PATH" → aget (adel attrs p!"H5PATH") k = aget attrs k := fun k hk => aget_view ⟨attrs, .group links⟩ k hk
  rw [v _ (by decide), v _ (by decide), v _ (by decide), v _ (by decide), fresh_none hnd h g3, fresh_string hnd h g4, fresh_strings hnd h g5, fresh_none hnd h g6]
  dsimp only [attrToStrings, attrToString, bind, Except.bind]
  rw [escapePath_plain hkv.keys, escapePath_plain hkv.vals]
  dsimp only
  rw [if_pos rfl, hqk, hqv]
  dsimp only
  rw [hk]
  dsimp only [iterVal]
  rw [hv]

theorem foldl_extra {P : Str → Prop} (l f : List Str) (h : ∀ k ∈ l, k ∈ f ∨ P k) :
    ∃ ex, l.foldl (fun f s => if f.contains s then f else f ++ [s]) f = f ++ ex ∧ ∀ k ∈ ex, P k := by
  induction l generalizing f with
  | nil => exact ⟨[], by simp, by simp⟩
  | cons a l ih =>
    rw [List.foldl_cons]
    by_cases ha : f.contains a = true
    · rw [if_pos ha]
      exact ih f (fun k hk => h k (by simp [hk]))
    · rw [if_neg ha]
      obtain ⟨ex, e1, e2⟩ := ih (f ++ [a]) (fun k hk => (h k (by simp [hk])).imp (fun h => by simp [h]) (fun h => h))
      refine ⟨a :: ex, by rw [e1]; simp, ?_⟩
      intro k hk
      rcases List.mem_cons.mp hk with rfl | hk
      · exact (h k (by simp)).resolve_left (fun hm => ha (by simpa using hm))
      · exact e2 k hk

/-- What is excluded is not read. -/
theorem readItems_excluded {rd : Rd} {excl : Option Nat} {links : List (Str × Nat)} (conv : Nat → Str → Res Val) (i : Nat) (names ex : List Str)
    (h : ∀ k ∈ ex, ∃ q, aget links k = some q ∧ excl = some q) :
    readItems rd excl links conv i (names ++ ex) = readItems rd excl links conv i names := by
  induction names generalizing i with
  | nil =>
    induction ex generalizing i with
    | nil => rfl
    | cons k ex ih =>
      obtain ⟨q, h1, h2⟩ := h k (by simp)
      rw [List.nil_append, readItems]
      have e : (match readItem rd excl links conv i k with | .ok (some p) => p :: readItems rd excl links conv (i + 1) ex | _ => readItems rd excl links conv (i + 1) ex) =
          readItems rd excl links conv (i + 1) ex := by
        unfold readItem
        cases hu : unescapePath k with
        | error e => rfl
        | ok uk => simp only [bind, Except.bind, h1, h2, if_pos]
      exact e.trans (ih (fun k hk => h k (by simp [hk])) (i + 1))
  | cons k names ih =>
    rw [List.cons_append, readItems, readItems, ih (i + 1)]

/-- Items stored under the names of the keys. -/
theorem readDictItems_text {o ro : COpts} (ho : RtOpts o) {struct : Bool} {ts : Str} {attrs : List (Str × AVal)} {links : List (Str × Nat)} {keys vals : List Val}
    {texts : List Str} {l : List (Str × Nat)} (hl : l.length = keys.length)
    (hn : All2 (fun k t => unescapePath k = .ok t) (l.map (·.1)) texts)
    (hkc : ∀ j key t, keys[j]? = some key → texts[j]? = some t → keyConvert ((l.map (·.2)).getD j 0) t = .ok key)
    (h : setAttributesAll [] (dictAttrs o (some l) struct ts) true = (.ok (), attrs)) {excl : Option Nat} (hlk : ∀ k q, aget links k = some q → k ∈ l.map (·.1) ∨ excl = some q)
    {rd : Rd} {oids : List Nat} (hq : All2 (fun k q => aget links k = some q ∧ excl ≠ some q) (l.map (·.1)) oids)
    (hv : All2 (fun q v => rd q = .ok v) oids vals) (hkt : All2 KeyText keys texts) (htn : texts.Nodup) :
    readDictItems rd ro excl (Obj.view ⟨attrs, .group links⟩) = .ok (keys.zip vals) := by
  have hnd := dictAttrs_nodup o (some l) struct ts
  obtain ⟨_, _, g3, g4, g5, g6, g7⟩ := dictAttrs_some o ho.pyMeta l struct ts
  unfold readDictItems
  dsimp only [Obj.view]
  have v : ∀ k, k ≠ p!"H5PATH" → aget (adel attrs p!"H5PATH") k = aget attrs k := fun k hk => aget_view ⟨attrs, .group links⟩ k hk
  rw [v _ (by decide), v _ (by decide), v _ (by decide), v _ (by decide), v _ (by decide), fresh_strings hnd h g3, fresh_string hnd h g4, fresh_none hnd h g5, fresh_string hnd h g6]
  dsimp only [attrToStrings, bind, Except.bind]
  rw [escapePath_eq, escapePath_eq]
  dsimp only
  rw [if_neg (by decide)]
  dsimp only
  have hmf : matlabFields (aget attrs p!"MATLAB_fields") = .ok none ∨ matlabFields (aget attrs p!"MATLAB_fields") = .ok (some (l.map (·.1))) := by
    cases hb : o.matlab && l.all (fun i => i.1.all (· < 128)) with
    | false =>
      left
      rw [fresh_none hnd h (g7.trans (by rw [hb]; rfl))]; rfl
    | true =>
      right
      rw [fresh_value hnd h (g7.trans (by rw [hb]; rfl))]
      show ((l.map (·.1)).mapM utf8Dec >>= fun r => Except.ok (some r)) = _
      rw [mapM_of_all utf8Dec id (l.map (·.1)), List.map_id]
      · rfl
      · intro a ha
        obtain ⟨i, hi, rfl⟩ := List.mem_map.mp ha
        apply utf8Dec_ascii
        have := (List.all_eq_true.mp (Bool.and_eq_true_iff.mp hb).2) i hi
        simpa using this
  have hkeys : ∀ k ∈ sortStr (akeys links), k ∈ l.map (·.1) ∨ ∃ q, aget links k = some q ∧ excl = some q := by
    intro k hk
    have hk := (sortStr_perm _).mem_iff.mp hk
    have := (aget_isSome_iff links k).mpr hk
    obtain ⟨q, hq⟩ := Option.isSome_iff_exists.mp this
    exact (hlk k q hq).imp (fun h => h) (fun h => ⟨q, hq, h⟩)
  obtain ⟨ex, hex1, hex2⟩ := foldl_extra (sortStr (akeys links)) (l.map (·.1)) hkeys
  have hdf : ∀ mf, mf = none ∨ mf = some (l.map (·.1)) → dictFields (some (l.map (·.1))) mf links = l.map (·.1) ++ ex := by
    intro mf hmf
    unfold dictFields
    dsimp only
    rcases hmf with rfl | rfl
    · dsimp only [Option.getD, List.foldl]
      exact hex1
    · dsimp only [Option.getD]
      rw [foldl_fields _ _ (fun k hk => hk)]
      exact hex1
  obtain ⟨mf, hmf1, hmf2⟩ : ∃ mf, matlabFields (aget attrs p!"MATLAB_fields") = .ok mf ∧ (mf = none ∨ mf = some (l.map (·.1))) := by
    rcases hmf with h | h
    · exact ⟨_, h, Or.inl rfl⟩
    · exact ⟨_, h, Or.inr rfl⟩
  rw [hmf1]
  dsimp only
  rw [hdf mf hmf2]
  congr 1
  rw [readItems_excluded _ _ _ _ hex2]
  refine Eq.trans (congrArg mergeItems (readItems_rt 0 hn hq hv ?_ (by simp [hl]))) (mergeItems_zip hkt htn vals)
  intro j key t h1 h2
  have hj : j < keys.length := (List.getElem?_eq_some_iff.mp h1).1
  rw [if_pos (by simp [hl, hj]), Nat.zero_add]
  exact hkc j key t h1 h2

theorem map_fst_zip {α β : Type} (a : List α) (b : List β) (h : a.length = b.length) : (a.zip b).map (·.1) = a := by
  induction a generalizing b with
  | nil => rfl
  | cons x a ih =>
    cases b with
    | nil => cases h
    | cons y b => simp only [List.zip_cons_cons, List.map_cons, ih b (by simpa using h)]

theorem map_snd_zip {α β : Type} (a : List α) (b : List β) (h : a.length = b.length) : (a.zip b).map (·.2) = b := by
  induction a generalizing b with
  | nil => cases b with
    | nil => rfl
    | cons _ _ => cases h
  | cons x a ih =>
    cases b with
    | nil => cases h
    | cons y b => simp only [List.zip_cons_cons, List.map_cons, ih b (by simpa using h)]

theorem all2_unzip {α β γ : Type} {R : α → γ → Prop} {S : β → γ → Prop} {a : List α} {b : List β} {c : List γ} (hl : a.length = b.length)
    (h : All2 (fun i q => R i.1 q ∧ S i.2 q) (a.zip b) c) : All2 R a c ∧ All2 (fun q v => S v q) c b := by
  induction a generalizing b c with
  | nil =>
    cases b with
    | nil => cases h; exact ⟨.nil, .nil⟩
    | cons _ _ => cases hl
  | cons x a ih =>
    cases b with
    | nil => cases hl
    | cons y b =>
      rw [List.zip_cons_cons] at h
      cases h with
      | cons h1 h2 =>
        obtain ⟨i1, i2⟩ := ih (by simpa using hl) h2
        exact ⟨.cons h1.1 i1, .cons h1.2 i2⟩

/-- A dict-like written to an unused place: reading gives its items. -/
theorem dictItems_rt {x : Ctx} (ho : RtOpts x.o) {n B : Nat} {wr : Wr} (hwr : WrOk x wr) (hrt : WrRT x n wr) {s s' : St} {ob : Option Nat} {g : Nat}
    {gname name : Str} (hp : Pre x s g name) (hf : Fresh s g name) (hR : RandOk x s.rpos B) (hB : s'.rpos ≤ B) (keys vals : List Val) (struct : Bool) (ts : Str)
    (hlen : vals.length = keys.length) (hgv : ∀ v ∈ vals, Good x.o v)
    (hk : (∃ texts, All2 KeyText keys texts ∧ texts.Nodup) ∨ ((∃ k ∈ keys, NotTextKey k) ∧ KvNames x.o ∧ ∀ k ∈ keys, Good x.o k))
    (h : writeDict x wr g gname name keys vals struct ts s = (.ok ob, s')) :
    ∃ oid ob', ob = some oid ∧ NewObj x s s' oid ∧ (resolve s.heap 0 (refsComps x.o) ≠ some g → LinkAt s'.heap g name oid) ∧ viewOf s'.heap oid = some ob' ∧
      attrToString (aget ob'.attrs p!"Python.Type") = .ok (some ts) ∧ (∃ mc, attrToString (aget ob'.attrs p!"MATLAB_class") = .ok mc) ∧
      ∀ (ro : COpts) (V : View) (excl : Option Nat) (m : Nat), ReadableWith x.o ro (.dict .dict keys vals) → (∀ p, NewObj x s s' p → V p = viewOf s'.heap p) → (∀ q, excl = some q → ¬ NewObj x s s' q) → n ≤ m →
        readDictItems (readData ro V excl m) ro excl ob' = .ok (keys.zip vals) := by
  rcases hk with ⟨texts, ht1, ht2⟩ | ⟨hnt, hkv, hgk⟩
  · obtain ⟨l, hl1, hl2, hl3, hl4, hl5⟩ := keyInfos_text ht1
    have hll : (l.map (·.1)).length = vals.length := by simp [hl2, hlen]
    have hdi : dictItems x.o keys vals = (l.map (·.1)).zip vals := by unfold dictItems; rw [hl1]
    have hnm : (dictItems x.o keys vals).map (·.1) = l.map (·.1) := by rw [hdi, map_fst_zip _ _ hll]
    obtain ⟨oid, links, attrs, oids, rfl, c1, c2, c3, c4, c5, c6⟩ := writeDict_fresh ho.keys_ne ho.vals_ne hwr hrt hp hf hR hB keys vals struct ts
      (by rw [hnm]; exact escaped_nodup hl4 ht2) (by
        intro i hi
        rw [hdi] at hi
        exact hgv _ (List.of_mem_zip hi).2) h
    rw [hl1] at c4
    rw [hnm] at c5
    rw [hdi] at c6
    obtain ⟨t1, t2⟩ := dict_ts ho.pyMeta c4 (.group links)
    refine ⟨oid, _, rfl, c1, c2, by rw [viewOf, c3]; rfl, t1, t2, ?_⟩
    intro ro V excl m hro v1 v2 v3
    have c7 : All2 (fun (i : Str × Val) q => (aget links i.1 = some q ∧ excl ≠ some q) ∧ readData ro V excl m q = .ok i.2) ((l.map (·.1)).zip vals) oids :=
      all2_mono (fun i q hh => ⟨⟨hh.2.2.1, fun e => v2 q e hh.2.1⟩, hh.2.2.2.1 ro V excl m (readable_val hro (List.of_mem_zip hh.1).2) v1 v2 v3⟩) (all2_mem c6)
    obtain ⟨d1, d2⟩ := all2_unzip (R := fun k q => aget links k = some q ∧ excl ≠ some q) (S := fun v q => readData ro V excl m q = .ok v) hll c7
    exact readDictItems_text ho hl2 hl3 hl5 c4 (fun k q hq => Or.inl (c5 k q hq)) d1 d2 ht1 ht2
  · have hl1 := keyInfos_notText hnt
    have hdi : dictItems x.o keys vals = [(x.o.keysName, .seq .tuple keys), (x.o.valuesName, .seq .tuple vals)] := by unfold dictItems; rw [hl1]
    obtain ⟨oid, links, attrs, oids, rfl, c1, c2, c3, c4, c5, c6⟩ := writeDict_fresh ho.keys_ne ho.vals_ne hwr hrt hp hf hR hB keys vals struct ts
      (by rw [hdi]; simp [hkv.ne]) (by
        intro i hi
        rw [hdi] at hi
        simp only [List.mem_cons, List.not_mem_nil, or_false] at hi
        rcases hi with rfl | rfl
        · exact .seq _ _ (fun h => by cases h) hgk
        · exact .seq _ _ (fun h => by cases h) hgv) h
    rw [hl1] at c4
    rw [hdi] at c6
    obtain ⟨t1, t2⟩ := dict_ts ho.pyMeta c4 (.group links)
    refine ⟨oid, _, rfl, c1, c2, by rw [viewOf, c3]; rfl, t1, t2, ?_⟩
    intro ro V excl m hro v1 v2 v3
    cases c6 with
    | cons a1 a2 =>
      cases a2 with
      | cons b1 b2 =>
        exact readDictItems_kv ho hkv c4 a1.2.1 b1.2.1 excl (a1.2.2.1 ro V excl m (readable_list hro.order fun e he => readable_key hro he) v1 v2 v3)
          (b1.2.2.1 ro V excl m (readable_list hro.order fun e he => readable_val hro he) v1 v2 v3)

/-- Mappings. -/
theorem dict_rt {x : Ctx} (ho : RtOpts x.o) {n B : Nat} {wr : Wr} (hwr : WrOk x wr) (hrt : WrRT x n wr) {s s' : St} {ob : Option Nat} {g : Nat}
    {gname name : Str} (hp : Pre x s g name) (hf : Fresh s g name) (hR : RandOk x s.rpos B) (hB : s'.rpos ≤ B) (k : DictKind) (keys vals : List Val) (struct : Bool)
    (hlen : vals.length = keys.length) (hgv : ∀ v ∈ vals, Good x.o v)
    (hk : (∃ texts, All2 KeyText keys texts ∧ texts.Nodup) ∨ ((∃ k ∈ keys, NotTextKey k) ∧ KvNames x.o ∧ ∀ k ∈ keys, Good x.o k))
    (h : writeDict x wr g gname name keys vals struct k.typeString s = (.ok ob, s')) :
    ∃ oid, ob = some oid ∧ RTOut x (n + 1) s s' g name (.dict k keys vals) oid := by
  obtain ⟨oid, ob', rfl, h1, h2, h3, h4, h5, h6⟩ := dictItems_rt ho hwr hrt hp hf hR hB keys vals struct _ hlen hgv hk h
  refine ⟨oid, rfl, h1, h2, ts_typed h3 h4, ?_⟩
  intro ro V excl m hro c1 c2 c3
  obtain ⟨m', rfl⟩ : ∃ m', m = m' + 1 := ⟨m - 1, by omega⟩
  rw [readData_ts ((c1 oid h1).trans h3) h4 h5]
  rw [show readTyped (looksMulti V) (readData ro V excl m') ro excl ob' k.typeString =
    (readDictItems (readData ro V excl m') ro excl ob' >>= fun it => .ok (.dict k (it.map (·.1)) (it.map (·.2)))) by cases k <;> rfl,
    h6 ro V excl m' (readable_dict hro.order (fun e he => readable_key hro he) (fun e he => readable_val hro he)) c1 c2 (by omega)]
  show Except.ok (Val.dict k ((keys.zip vals).map (·.1)) ((keys.zip vals).map (·.2))) = _
  rw [map_fst_zip _ _ hlen.symm, map_snd_zip _ _ hlen.symm]

theorem buildRecord_zip (k : RecKind) (vals : List Val) (h : vals.length = k.fieldNames.length) :
    buildRecord (if recKindOf k.typeString = some .timezone1 ∧ ((k.fieldNames.map Val.str).zip vals).length = 2 then .timezone2 else (recKindOf k.typeString).getD k)
      ((k.fieldNames.map Val.str).zip vals) = .ok (.record k vals) := by
  cases k <;> simp only [RecKind.fieldNames, List.length_cons, List.length_nil] at h
  all_goals
    match vals, h with
    | [_], h => first | rfl | (simp at h; done)
    | [_, _], h => first | rfl | (simp at h; done)
    | [_, _, _], h => first | rfl | (simp at h; done)
    | [_, _, _, _, _], h => first | rfl | (simp at h; done)
    | [_, _, _, _, _, _, _, _], h => first | rfl | (simp at h; done)

theorem allKeyText_str (l : List Str) : All2 KeyText (l.map Val.str) l := by
  induction l with
  | nil => exact .nil
  | cons a l ih => exact .cons (.str a) ih

/-- Records. -/
theorem record_rt {x : Ctx} (ho : RtOpts x.o) {n B : Nat} {wr : Wr} (hwr : WrOk x wr) (hrt : WrRT x n wr) {s s' : St} {ob : Option Nat} {g : Nat}
    {gname name : Str} (hp : Pre x s g name) (hf : Fresh s g name) (hR : RandOk x s.rpos B) (hB : s'.rpos ≤ B) (k : RecKind) (vals : List Val) (struct : Bool)
    (hlen : vals.length = k.fieldNames.length) (hgv : ∀ v ∈ vals, Good x.o v)
    (h : writeDict x wr g gname name (k.fieldNames.map Val.str) vals struct k.typeString s = (.ok ob, s')) :
    ∃ oid, ob = some oid ∧ RTOut x (n + 1) s s' g name (.record k vals) oid := by
  obtain ⟨oid, ob', rfl, h1, h2, h3, h4, h5, h6⟩ := dictItems_rt ho hwr hrt hp hf hR hB (k.fieldNames.map Val.str) vals struct _ (by simpa using hlen) hgv
    (Or.inl ⟨k.fieldNames, allKeyText_str _, by cases k <;> decide⟩) h
  refine ⟨oid, rfl, h1, h2, ts_typed h3 h4, ?_⟩
  intro ro V excl m hro c1 c2 c3
  obtain ⟨m', rfl⟩ : ∃ m', m = m' + 1 := ⟨m - 1, by omega⟩
  rw [readData_ts ((c1 oid h1).trans h3) h4 h5]
  rw [show readTyped (looksMulti V) (readData ro V excl m') ro excl ob' k.typeString =
    (readDictItems (readData ro V excl m') ro excl ob' >>= fun it =>
      buildRecord (if (recKindOf k.typeString).getD k = .timezone1 ∧ it.length = 2 then .timezone2 else (recKindOf k.typeString).getD k) it) by cases k <;> rfl,
    h6 ro V excl m' (readable_dict hro.order (fun e he => by
      obtain ⟨z, _, rfl⟩ := List.mem_map.mp he
      exact ⟨hro.order, fun _ _ h => by cases h⟩) (fun e he => readable_part hro (HasStruct.record k vals e he))) c1 c2 (by omega)]
  rw [← buildRecord_zip k vals hlen]
  have : ((recKindOf k.typeString).getD k = .timezone1) ↔ (recKindOf k.typeString = some .timezone1) := by cases k <;> decide
  simp only [this]
  rfl

/-- Whatever is written to an unused place reads back; object arrays also without their attributes. -/
theorem writeData_rt2 {x : Ctx} (ho : RtOpts x.o) (n : Nat) : WrRT x n (writeData x n) ∧ ∀ B sh el, prodN sh ≠ 0 → el.length = prodN sh → (∀ e ∈ el, Good x.o e) →
    ItemRT x (writeData x n) B true (FieldSeen x n true) (.npObj .ndarray sh el) := by
  induction n with
  | zero =>
    refine ⟨?_, ?_⟩
    · intro s g gname name v s' ob B _ _ _ _ _ _ h; cases h
    · intro B sh el _ _ _ s g gname name s1 s2 ob _ _ _ _ _ h; cases h
  | succ n ih2 =>
    obtain ⟨ih, ihm⟩ := ih2
    have hwr := writeData_post ho.keys_ne ho.vals_ne n
    refine ⟨?_, fun B sh el h0 hl hg => item_multi (writeData_post ho.keys_ne ho.vals_ne (n + 1)) (writeData_raw hwr ih) h0 hl hg⟩
    intro s g gname name v s' ob B hp hf hsl hR hB hg h
    have leaf : ∀ c a, leafOf v = some (c, a) → writeNp x g name c a (tsOf v) s = (.ok ob, s') → ∃ oid, ob = some oid ∧ RTOut x (n + 1) s s' g name v oid :=
      fun c a hl h => leaf_rt (ho.optsOk) ho.pyMeta hp hf hg hl h n
    have leaf' : (match leafOf v with | some (c, a) => writeNp x g name c a (tsOf v) | none => raise .notImplemented) s = (.ok ob, s') →
        ∃ oid, ob = some oid ∧ RTOut x (n + 1) s s' g name v oid := by
      intro h
      cases hl : leafOf v with
      | none => rw [hl] at h; cases h
      | some ca => obtain ⟨c, a⟩ := ca; rw [hl] at h; exact leaf c a hl h
    cases hg with
    | npObj c shape elems hc hl hge => exact npObj_rt (ho.optsOk) ho.pyMeta hwr ih hp hf hsl hR hB c shape elems hc hl hge h
    | seq k elems hk hge => exact seq_rt (ho.optsOk) ho.pyMeta hwr ih hp hf hsl hR hB k elems hk hge h
    | dictText k keys vals texts h1 h2 h3 h4 => exact dict_rt ho hwr ih hp hf hR hB k keys vals _ h3 h4 (Or.inl ⟨texts, h1, h2⟩) h
    | dictAny k keys vals h1 h0 h2 h3 h4 => exact dict_rt ho hwr ih hp hf hR hB k keys vals _ h2 h4 (Or.inr ⟨h1, h0, h3⟩) h
    | record k vals h1 h2 => exact record_rt ho hwr ih hp hf hR hB k vals _ h1 h2 h
    | npStruct c shape names types elems h1 h2 => exact struct_rt ho.optsOk ho.pyMeta hwr ih (ihm B) hp hf hR hB c shape names types elems h1 h2 h
    | npTable c shape names types elems h1 => exact table_rt ho.pyMeta hwr hp hf c shape names types elems h1 h
    | _ => exact leaf' h

/-- Whatever is written to an unused place reads back. -/
theorem writeData_rt {x : Ctx} (ho : RtOpts x.o) (n : Nat) : WrRT x n (writeData x n) := (writeData_rt2 ho n).1

end HS
