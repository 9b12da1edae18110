import Verif.Lemmas.RtDict
import Verif.Lemmas.Collection
import Verif.Lemmas.Merge
/-
Reading back dicts.
-/
namespace HS
open Spec

theorem dictAttrs_nodup (o : COpts) (info : Option (List (Str × Nat))) (struct : Bool) (ts : Str) : (akeys (dictAttrs o info struct ts)).Nodup := by
  unfold dictAttrs
  cases info with
  | none => cases o.pyMeta <;> cases o.matlab <;> cases struct <;> exact of_decide_eq_true rfl
  | some l =>
    dsimp only
    cases o.pyMeta <;> cases o.matlab <;> cases struct <;> cases (l.all fun i => i.1.all (· < 128)) <;> exact of_decide_eq_true rfl

theorem dictAttrs_none (o : COpts) (hm : o.pyMeta = true) (struct : Bool) (ts : Str) :
    aget (dictAttrs o none struct ts) p!"Python.Type" = some (.string ts) ∧
    aget (dictAttrs o none struct ts) p!"MATLAB_class" = (if o.matlab && struct then some (.string p!"struct") else none) ∧
    aget (dictAttrs o none struct ts) p!"Python.Fields" = none ∧
    aget (dictAttrs o none struct ts) p!"Python.dict.StoredAs" = some (.string p!"keys_values") ∧
    aget (dictAttrs o none struct ts) p!"Python.dict.keys_values_names" = some (.stringArray [o.keysName, o.valuesName]) ∧
    aget (dictAttrs o none struct ts) p!"Python.dict.key_str_types" = none := by
  unfold dictAttrs
  rw [hm]
  cases o.matlab <;> cases struct <;> exact ⟨rfl, rfl, rfl, rfl, rfl, rfl⟩

theorem dictAttrs_some (o : COpts) (hm : o.pyMeta = true) (l : List (Str × Nat)) (struct : Bool) (ts : Str) :
    aget (dictAttrs o (some l) struct ts) p!"Python.Type" = some (.string ts) ∧
    aget (dictAttrs o (some l) struct ts) p!"MATLAB_class" = (if o.matlab && struct then some (.string p!"struct") else none) ∧
    aget (dictAttrs o (some l) struct ts) p!"Python.Fields" = some (.stringArray (l.map (·.1))) ∧
    aget (dictAttrs o (some l) struct ts) p!"Python.dict.StoredAs" = some (.string p!"individually") ∧
    aget (dictAttrs o (some l) struct ts) p!"Python.dict.keys_values_names" = none ∧
    aget (dictAttrs o (some l) struct ts) p!"Python.dict.key_str_types" = some (.string (l.map (·.2))) ∧
    aget (dictAttrs o (some l) struct ts) p!"MATLAB_fields" =
      (if o.matlab && l.all (fun i => i.1.all (· < 128)) then some (.value (.fields (l.map (·.1)))) else none) := by
  unfold dictAttrs
  rw [hm]
  dsimp only
  cases o.matlab <;> cases struct <;> cases (l.all fun i => i.1.all (· < 128)) <;> exact ⟨rfl, rfl, rfl, rfl, rfl, rfl, rfl⟩

/-- Adding fields that are there already. -/
theorem foldl_fields (l f : List Str) (h : ∀ k ∈ l, k ∈ f) : l.foldl (fun f s => if f.contains s then f else f ++ [s]) f = f := by
  induction l with
  | nil => rfl
  | cons a l ih =>
    rw [List.foldl_cons, if_pos (by simpa using h a (by simp))]
    exact ih (fun k hk => h k (by simp [hk]))

/-- The items of a dict stored under its keys. -/
theorem readItems_rt {rd : Rd} {excl : Option Nat} {links : List (Str × Nat)} {conv : Nat → Str → Res Val} {names texts : List Str} {keys vals : List Val}
    {oids : List Nat} (i : Nat) (hn : All2 (fun k t => unescapePath k = .ok t) names texts)
    (hq : All2 (fun k q => aget links k = some q ∧ excl ≠ some q) names oids) (hv : All2 (fun q v => rd q = .ok v) oids vals)
    (hk : ∀ j key t, keys[j]? = some key → texts[j]? = some t → conv (i + j) t = .ok key) (hl : keys.length = names.length) :
    readItems rd excl links conv i names = keys.zip vals := by
  induction hn generalizing i keys vals oids with
  | nil =>
    cases hq
    cases hv
    have : keys = [] := List.eq_nil_of_length_eq_zero hl
    subst this
    rfl
  | @cons k t names texts h1 h2 ih =>
    cases hq with
    | cons hq1 hq2 =>
      rename_i q oids
      cases hv with
      | cons hv1 hv2 =>
        rename_i v vals
        cases keys with
        | nil => cases hl
        | cons key keys =>
          have hc := hk 0 key t rfl rfl
          have e1 : readItem rd excl links conv i k = .ok (some (key, v)) := by
            unfold readItem
            rw [h1]
            dsimp only [bind, Except.bind]
            rw [hq1.1]
            dsimp only
            rw [if_neg hq1.2, hv1]
            dsimp only
            rw [show conv i t = .ok key from hc]
          have ih' := ih (i + 1) hq2 hv2 (keys := keys) (fun j key t a b => by
            have := hk (j + 1) key t (by simpa using a) (by simpa using b)
            rw [show i + 1 + j = i + (j + 1) by omega]
            exact this) (by simpa using hl)
          rw [readItems, e1, List.zip_cons_cons, ← ih']

/-- Keys that are strings. -/
theorem keyInfo_text {key : Val} {t : Str} (h : KeyText key t) : ∃ e c, keyInfo key = some (e, c) ∧ escapePath t = .ok e ∧ unescapePath e = .ok t ∧ keyConvert c t = .ok key := by
  obtain ⟨e, h1, h2⟩ := C01_unescape_escape t
  cases h with
  | str =>
    refine ⟨e, 116, ?_, h1, h2, rfl⟩
    rw [keyInfo, h1]; rfl
  | bytes _ b hb =>
    refine ⟨e, 98, ?_, h1, h2, ?_⟩
    · have : (utf8Dec b >>= escapePath) = .ok e := by rw [utf8Dec_enc t b hb]; exact h1
      rw [keyInfo, this]; rfl
    · show (utf8Enc t >>= fun b => Except.ok (Val.bytes b)) = _
      rw [hb]; rfl
  | npStr _ hs hf =>
    refine ⟨e, 85, ?_, h1, h2, rfl⟩
    have : (convertToStr (.np true (npStr t)) >>= escapePath) = .ok e := by rw [(C20_utf16_utf32_partial t hs hf []).2.2]; exact h1
    show ((convertToStr (.np true (npStr t)) >>= escapePath).toOption).map (fun e => (e, 85)) = _
    rw [this]; rfl
  | npBytes _ b hb =>
    refine ⟨e, 83, ?_, h1, h2, ?_⟩
    · have : (convertToStr (.np true (npBytes b)) >>= escapePath) = .ok e := by rw [(C20_utf8 t b hb []).2.2.1]; exact h1
      show ((convertToStr (.np true (npBytes b)) >>= escapePath).toOption).map (fun e => (e, 83)) = _
      rw [this]; rfl
    · show (utf8Enc t >>= fun b => Except.ok (Val.np .scalar (npBytes b))) = _
      rw [hb]; rfl

/-- All keys are strings: names and types. -/
theorem keyInfos_text {keys : List Val} {texts : List Str} (h : All2 KeyText keys texts) : ∃ l, keyInfos keys = some l ∧ l.length = keys.length ∧
    All2 (fun k t => unescapePath k = .ok t) (l.map (·.1)) texts ∧ All2 (fun k t => escapePath t = .ok k) (l.map (·.1)) texts ∧
    ∀ j key t, keys[j]? = some key → texts[j]? = some t → keyConvert ((l.map (·.2)).getD j 0) t = .ok key := by
  induction h with
  | nil => exact ⟨[], rfl, rfl, .nil, .nil, fun j key t a => by simp at a⟩
  | @cons key t keys texts h1 h2 ih =>
    obtain ⟨l, a1, a2, a3, a4, a5⟩ := ih
    obtain ⟨e, c, b1, b2, b3, b4⟩ := keyInfo_text h1
    refine ⟨(e, c) :: l, ?_, by simp [a2], .cons b3 a3, .cons b2 a4, ?_⟩
    · rw [keyInfos, b1, a1]
    · intro j key' t' hj1 hj2
      cases j with
      | zero =>
        simp only [List.getElem?_cons_zero, Option.some.injEq] at hj1 hj2
        subst hj1; subst hj2
        exact b4
      | succ j => exact a5 j key' t' (by simpa using hj1) (by simpa using hj2)

theorem escaped_nodup {names texts : List Str} (h : All2 (fun k t => escapePath t = .ok k) names texts) (hnd : texts.Nodup) : names.Nodup := by
  induction h with
  | nil => exact .nil
  | @cons k t names texts h1 h2 ih =>
    rw [List.nodup_cons] at hnd ⊢
    refine ⟨?_, ih hnd.2⟩
    intro hk
    have key : ∀ {names texts : List Str}, All2 (fun k t => escapePath t = .ok k) names texts → k ∈ names → ∃ t' ∈ texts, escapePath t' = .ok k := by
      intro names texts h
      induction h with
      | nil => intro h; cases h
      | cons h1 _ ih =>
        intro hm
        rcases List.mem_cons.mp hm with rfl | hm
        · exact ⟨_, by simp, h1⟩
        · obtain ⟨t', h3, h4⟩ := ih hm
          exact ⟨t', by simp [h3], h4⟩
    obtain ⟨t', h3, h4⟩ := key h2 hk
    have := C03_escape_injective t t' (h1.trans h4.symm)
    subst this
    exact hnd.1 h3

theorem keyInfo_notText {k : Val} (h : NotTextKey k) : keyInfo k = none := by
  cases k with
  | str s => exact h.elim
  | bytes b =>
    rw [keyInfo]
    cases hd : utf8Dec b with
    | error e => rfl
    | ok s => exact absurd (utf8Enc_dec b s hd) (h s)
  | np c a =>
    cases c with
    | scalar =>
      obtain ⟨dt, sh, da⟩ := a
      cases dt with
      | str n => exact h.elim
      | bytes n =>
        obtain ⟨b, hb, hno⟩ := h
        rw [hb]
        show ((convertToStr (.np true (npBytes b)) >>= escapePath).toOption).map (fun e => (e, 83)) = _
        have : ∃ e, convertToStr (.np true (npBytes b)) = .error e := by
          rw [npBytes_self]
          cases b with
          | nil => exact absurd rfl (hno [])
          | cons x y =>
            show ∃ e, utf8Dec ((x :: y) ++ []) = .error e
            rw [List.append_nil]
            cases hd : utf8Dec (x :: y) with
            | error e => exact ⟨e, rfl⟩
            | ok s => exact absurd (utf8Enc_dec _ s hd) (hno s)
        obtain ⟨e, he⟩ := this
        rw [he]; rfl
      | _ => rfl
    | _ => rfl
  | _ => rfl

theorem keyInfos_notText {keys : List Val} (h : ∃ k ∈ keys, NotTextKey k) : keyInfos keys = none := by
  induction keys with
  | nil => obtain ⟨k, h, _⟩ := h; cases h
  | cons a keys ih =>
    obtain ⟨k, h1, h2⟩ := h
    rw [keyInfos]
    rcases List.mem_cons.mp h1 with rfl | h1
    · rw [keyInfo_notText h2]
    · rw [ih ⟨k, h1, h2⟩]
      cases keyInfo a <;> rfl

end HS
