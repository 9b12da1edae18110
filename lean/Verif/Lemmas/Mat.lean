import Verif.Spec.Mat
import Verif.Lemmas.Away
import Verif.Lemmas.Options
import Verif.Props.Path
/-
Lemmas about the functions of the module.
-/
namespace HS
open Spec

theorem pget_pset (l : List (PathArg × Val)) (k : PathArg) (v : Val) (k' : PathArg) : pget (pset l k v) k' = if k = k' then some v else pget l k' := by
  induction l with
  | nil => rfl
  | cons p l ih =>
    obtain ⟨a, w⟩ := p
    rw [pset]
    split
    · rename_i h
      subst h
      rw [pget, pget]
      by_cases h : a = k'
      · rw [if_pos h, if_pos h]
      · rw [if_neg h, if_neg h, if_neg h]
    · rename_i h
      rw [pget, pget, ih]
      by_cases h2 : a = k'
      · subst h2
        rw [if_pos rfl, if_pos rfl, if_neg (fun e => h e.symm)]
      · rw [if_neg h2, if_neg h2]

theorem pkeys_pset (l : List (PathArg × Val)) (k : PathArg) (v : Val) : (pset l k v).map (·.1) = if k ∈ l.map (·.1) then l.map (·.1) else l.map (·.1) ++ [k] := by
  induction l with
  | nil => rfl
  | cons p l ih =>
    obtain ⟨a, w⟩ := p
    rw [pset]
    split
    · rename_i h
      subst h
      simp
    · rename_i h
      simp only [List.map_cons, ih, List.mem_cons]
      by_cases h2 : k ∈ l.map (·.1)
      · rw [if_pos h2, if_pos (Or.inr h2)]
      · rw [if_neg h2, if_neg (by rintro (h3 | h3); exact h h3.symm; exact h2 h3)]
        rfl

theorem pnodup_pset {l : List (PathArg × Val)} (h : (l.map (·.1)).Nodup) (k : PathArg) (v : Val) : ((pset l k v).map (·.1)).Nodup := by
  rw [pkeys_pset]
  split
  · exact h
  · rename_i hk
    refine List.nodup_append.mpr ⟨h, by simp, ?_⟩
    intro a ha b hb
    simp only [List.mem_singleton] at hb
    subst hb
    exact fun e => hk (e ▸ ha)

theorem pget_mem {l : List (PathArg × Val)} (h : (l.map (·.1)).Nodup) {k : PathArg} {v : Val} : pget l k = some v ↔ (k, v) ∈ l := by
  induction l with
  | nil => simp [pget]
  | cons p l ih =>
    obtain ⟨a, w⟩ := p
    simp only [List.map_cons, List.nodup_cons] at h
    rw [pget]
    by_cases h2 : a = k
    · subst h2
      rw [if_pos rfl]
      constructor
      · intro e; cases e; simp
      · intro e
        rcases List.mem_cons.mp e with e | e
        · cases e; rfl
        · exact absurd (List.mem_map_of_mem (f := (·.1)) e) h.1
    · rw [if_neg h2, ih h.2]
      constructor
      · intro e; exact List.mem_cons_of_mem _ e
      · intro e
        rcases List.mem_cons.mp e with e | e
        · cases e; exact absurd rfl h2
        · exact e

/-- Updating with a dict. -/
theorem updateDict_get {data : List (PathArg × Val)} (h : (data.map (·.1)).Nodup) (m : List (PathArg × Val)) (k : PathArg) :
    pget (updateDict m data) k = match pget data k with | some v => some v | none => pget m k := by
  induction data generalizing m with
  | nil => rfl
  | cons p l ih =>
    obtain ⟨a, w⟩ := p
    simp only [List.map_cons, List.nodup_cons] at h
    rw [updateDict, ih h.2, pget_pset, pget]
    by_cases h2 : a = k
    · subst h2
      have : pget l a = none := by
        cases hg : pget l a with
        | none => rfl
        | some v => exact absurd (List.mem_map_of_mem (f := (·.1)) ((pget_mem h.2).mp hg)) h.1
      rw [this]
      simp
    · rw [if_neg h2, if_neg h2]

theorem loadSome_nodup (y : Ctx) (n : Nat) (F : FileS) (ns : List PathArg) (data : List (PathArg × Val)) (h : (data.map (·.1)).Nodup) :
    ((loadSome y n F ns data).map (·.1)).Nodup := by
  induction ns generalizing data with
  | nil => exact h
  | cons k ns ih =>
    rw [loadSome]
    split
    · exact ih _ (pnodup_pset h _ _)
    · exact ih _ h

theorem loadSome_get (y : Ctx) (n : Nat) (F : FileS) (ns : List PathArg) (data : List (PathArg × Val)) (k : PathArg) :
    pget (loadSome y n F ns data) k = match (if k ∈ ns then fileRead y n k F else .error .other) with | .ok v => some v | .error _ => pget data k := by
  induction ns generalizing data with
  | nil => simp [loadSome]
  | cons a ns ih =>
    rw [loadSome]
    by_cases ha : a = k
    · subst ha
      rw [if_pos (by simp : a ∈ a :: ns)]
      cases hr : fileRead y n a F with
      | error e =>
        dsimp only
        rw [ih, hr]
        by_cases hm : a ∈ ns
        · rw [if_pos hm]
        · rw [if_neg hm]
      | ok v =>
        dsimp only
        rw [ih, hr, pget_pset, if_pos rfl]
        by_cases hm : a ∈ ns
        · rw [if_pos hm]
        · rw [if_neg hm]
    · have hk : (if k ∈ a :: ns then fileRead y n k F else .error .other) = (if k ∈ ns then fileRead y n k F else .error .other) := by
        by_cases hm : k ∈ ns
        · rw [if_pos hm, if_pos (List.mem_cons_of_mem _ hm)]
        · rw [if_neg hm, if_neg (fun h => (List.mem_cons.mp h).elim (fun e => ha e.symm) hm)]
      rw [hk]
      split
      · rw [ih, pget_pset, if_neg ha]
      · rw [ih]

theorem loadAll_nodup {y : Ctx} {n : Nat} {F : FileS} {ks : List Str} {data r : List (PathArg × Val)} (h : (data.map (·.1)).Nodup) (hl : loadAll y n F ks data = .ok r) :
    (r.map (·.1)).Nodup := by
  induction ks generalizing data with
  | nil => cases hl; exact h
  | cons k ks ih =>
    rw [loadAll] at hl
    obtain ⟨v, _, hl⟩ := res_bind_ok.mp hl
    obtain ⟨uk, _, hl⟩ := res_bind_ok.mp hl
    exact ih (pnodup_pset h _ _) hl

theorem lastOf_cons (rd : Str → Res Val) (a : Str) (ks : List Str) (k : PathArg) (v : Val) :
    LastOf rd (a :: ks) k v ↔ LastOf rd ks k v ∨ ((∃ s, unescapePath a = .ok s ∧ k = .str s ∧ ∀ e ∈ ks, unescapePath e ≠ .ok s) ∧ rd a = .ok v) := by
  constructor
  · rintro ⟨i, e, s, h1, h2, h3, h4, h5⟩
    cases i with
    | zero =>
      simp only [List.getElem?_cons_zero, Option.some.injEq] at h1
      subst h1
      refine Or.inr ⟨⟨s, h2, h3, ?_⟩, h4⟩
      intro e he
      obtain ⟨j, hj⟩ := List.mem_iff_getElem?.mp he
      exact h5 (j + 1) e (by omega) (by simpa using hj)
    | succ i =>
      exact Or.inl ⟨i, e, s, by simpa using h1, h2, h3, h4, fun j e' hj he => h5 (j + 1) e' (by omega) (by simpa using he)⟩
  · rintro (⟨i, e, s, h1, h2, h3, h4, h5⟩ | ⟨⟨s, h1, h2, h3⟩, h4⟩)
    · refine ⟨i + 1, e, s, by simpa using h1, h2, h3, h4, ?_⟩
      intro j e' hj he
      cases j with
      | zero => omega
      | succ j => exact h5 j e' (by omega) (by simpa using he)
    · refine ⟨0, a, s, rfl, h1, h2, h4, ?_⟩
      intro j e' hj he
      cases j with
      | zero => omega
      | succ j => exact h3 e' (List.mem_iff_getElem?.mpr ⟨j, by simpa using he⟩)

theorem lastOf_exists {rd : Str → Res Val} {l : List Str} {s e : Str} (h : ∀ k ∈ l, ∃ v, rd k = .ok v) (he : e ∈ l) (hs : unescapePath e = .ok s) :
    ∃ v, LastOf rd l (.str s) v := by
  induction l generalizing e with
  | nil => cases he
  | cons b l ih =>
    by_cases hq : ∃ e2 ∈ l, unescapePath e2 = .ok s
    · obtain ⟨e2, h1, h2⟩ := hq
      obtain ⟨v, hv⟩ := ih (fun k hk => h k (List.mem_cons_of_mem _ hk)) h1 h2
      exact ⟨v, (lastOf_cons _ _ _ _ _).mpr (Or.inl hv)⟩
    · have heb : e = b := (List.mem_cons.mp he).resolve_right (fun hh => hq ⟨e, hh, hs⟩)
      subst heb
      obtain ⟨v, hv⟩ := h e (by simp)
      exact ⟨v, (lastOf_cons _ _ _ _ _).mpr (Or.inr ⟨⟨s, hs, rfl, fun e2 h1 h2 => hq ⟨e2, h1, h2⟩⟩, hv⟩)⟩

/-- Reading all variables. -/
theorem loadAll_get {y : Ctx} {n : Nat} {F : FileS} {ks : List Str} {data r : List (PathArg × Val)} (hl : loadAll y n F ks data = .ok r) :
    (∀ k ∈ ks, ∃ v s, fileRead y n (.str k) F = .ok v ∧ unescapePath k = .ok s) ∧ Updated data (LastOf (fun k => fileRead y n (.str k) F) ks) r := by
  induction ks generalizing data with
  | nil =>
    cases hl
    refine ⟨nofun, fun k v => ?_⟩
    constructor
    · intro h
      exact Or.inr ⟨fun w ⟨i, e, s, h1, _⟩ => by simp at h1, h⟩
    · rintro (⟨i, e, s, h1, _⟩ | ⟨_, h⟩)
      · simp at h1
      · exact h
  | cons a ks ih =>
    rw [loadAll] at hl
    obtain ⟨w, hw, hl⟩ := res_bind_ok.mp hl
    obtain ⟨s, hs, hl⟩ := res_bind_ok.mp hl
    obtain ⟨i1, i2⟩ := ih hl
    refine ⟨?_, fun k v => ?_⟩
    · intro k hk
      rcases List.mem_cons.mp hk with rfl | hk
      · exact ⟨w, s, hw, hs⟩
      · exact i1 k hk
    · rw [i2 k v, pget_pset]
      simp only [lastOf_cons]
      -- whether a later name has the same unescaped name
      by_cases hlast : ∃ v', LastOf (fun k => fileRead y n (.str k) F) ks k v'
      · have hno : ∀ w', ¬ ((∃ s, unescapePath a = .ok s ∧ k = .str s ∧ ∀ e ∈ ks, unescapePath e ≠ .ok s) ∧ fileRead y n (.str a) F = .ok w') := by
          rintro w' ⟨⟨s', h1, h2, h3⟩, _⟩
          obtain ⟨v', i, e, s'', h4, h5, h6, _⟩ := hlast
          rw [h2] at h6
          cases h6
          exact h3 e (List.mem_of_getElem? h4) h5
        obtain ⟨v', hv'⟩ := hlast
        constructor
        · rintro (h | ⟨h, _⟩)
          · exact Or.inl (Or.inl h)
          · exact absurd hv' (h v')
        · rintro ((h | h) | ⟨h, _⟩)
          · exact Or.inl h
          · exact absurd h (hno v)
          · exact absurd (Or.inl hv') (h v')
      · have hno : ∀ w', ¬ LastOf (fun k => fileRead y n (.str k) F) ks k w' := fun w' h => hlast ⟨w', h⟩
        have hnone : ∀ e ∈ ks, ∀ s', k = .str s' → unescapePath e ≠ .ok s' := by
          intro e he s' hks hes
          subst hks
          exact hlast (lastOf_exists (fun k hk => by obtain ⟨v, _, h, _⟩ := i1 k hk; exact ⟨v, h⟩) he hes)
        by_cases hk : PathArg.str s = k
        · subst hk
          rw [if_pos rfl]
          have hnew : ∀ w', ((∃ s1, unescapePath a = .ok s1 ∧ PathArg.str s = .str s1 ∧ ∀ e ∈ ks, unescapePath e ≠ .ok s1) ∧ fileRead y n (.str a) F = .ok w') ↔ w = w' := by
            intro w'
            constructor
            · rintro ⟨_, h⟩
              rw [hw] at h
              cases h; rfl
            · rintro rfl
              exact ⟨⟨s, hs, rfl, fun e he => hnone e he s rfl⟩, hw⟩
          constructor
          · rintro (h | ⟨_, h⟩)
            · exact absurd h (hno v)
            · cases h
              exact Or.inl (Or.inr ((hnew w).mpr rfl))
          · rintro ((h | h) | ⟨h, _⟩)
            · exact absurd h (hno v)
            · refine Or.inr ⟨hno, ?_⟩
              rw [(hnew v).mp h]
            · exact absurd (Or.inr ((hnew w).mpr rfl)) (h w)
        · rw [if_neg hk]
          have hnew : ∀ w', ¬ ((∃ s1, unescapePath a = .ok s1 ∧ k = .str s1 ∧ ∀ e ∈ ks, unescapePath e ≠ .ok s1) ∧ fileRead y n (.str a) F = .ok w') := by
            rintro w' ⟨⟨s1, h1, h2, _⟩, _⟩
            rw [hs] at h1
            cases h1
            exact hk h2.symm
          constructor
          · rintro (h | ⟨h, h2⟩)
            · exact Or.inl (Or.inl h)
            · exact Or.inr ⟨fun w' hh => hh.elim (h w') (hnew w'), h2⟩
          · rintro ((h | h) | ⟨h, h2⟩)
            · exact Or.inl h
            · exact absurd h (hnew v)
            · exact Or.inr ⟨fun w' hh => h w' (Or.inl hh), h2⟩

/-! ### Names of files -/

theorem endsWith_iff (s t : Str) : endsWith s t = true ↔ ∃ b, s = b ++ t := by
  unfold endsWith
  rw [List.isSuffixOf_iff_suffix]
  exact ⟨fun ⟨b, h⟩ => ⟨b, h.symm⟩, fun ⟨b, h⟩ => ⟨b, h.symm⟩⟩

theorem matName_of {b : Bool} {s t : Str} (h : MatName b s t) : savematName b (.str s) = .str t ∧ loadmatName b (.str s) = .str t := by
  rcases h with ⟨rfl, rfl⟩ | ⟨rfl, h, rfl⟩ | ⟨rfl, h, rfl⟩
  · exact ⟨rfl, rfl⟩
  · rw [← endsWith_iff] at h
    simp [savematName, loadmatName, h]
  · rw [← endsWith_iff] at h
    simp [savematName, loadmatName, h]

/-! ### Names of variables -/

theorem tokenize_plain (s : Str) (h : 92 ∉ s) : tokenize s = some (s.map Tok.lit) := by
  induction s with
  | nil => rfl
  | cons c s ih =>
    rw [tokenize_cons _ _ (fun e => h (by rw [e]; exact List.mem_cons_self)), ih (fun hc => h (List.mem_cons_of_mem _ hc))]
    rfl

theorem unescapePath_plain {s : Str} (h : 92 ∉ s) : unescapePath s = .ok s := by
  rw [unescapePath_exact, tokenize_plain s h]
  dsimp only
  rw [if_pos (by simp [Tok.valid])]
  have h1 : (s.map Tok.lit).flatMap Tok.render = s := by
    clear h
    induction s with
    | nil => rfl
    | cons c s ih =>
      rw [List.map_cons, List.flatMap_cons, ih]
      rfl
  rw [h1]
  congr 1
  clear h1
  induction s with
  | nil => rfl
  | cons c s ih => rw [replace2_cons_ne _ _ (fun e => h (by rw [e]; exact List.mem_cons_self)), ih (fun hc => h (List.mem_cons_of_mem _ hc))]

theorem addr_name {k : Str} (h1 : IsName k) (h2 : k ≠ [dot, dot]) : Addr (.str k) [k] := by
  have hnk : names k = [k] := by
    unfold names
    rw [hdf5Names_name k h1]
    simp only [dotdot]
    rw [if_neg h2]; rfl
  rw [← hnk]
  obtain ⟨g, t, hgt⟩ : ∃ g t, processPath (.str k) = .ok (g, t) := ⟨_, _, C06_process_path_str k⟩
  exact ⟨g, t, hgt, (C06_denotes k g t hgt).2.2.2.symm⟩

theorem _root_.HS.Spec.VarName.addr {k : Str} (h : VarName k) : Addr (.str k) [k] :=
  addr_name ⟨h.ne, h.slash, fun e => h.dots.1 e⟩ h.dots.2

/-! ### Options -/

theorem kwOptions_for {kw : List (Opt × PyVal)} {o : Options} (h : kwOptions kw = .ok o) : OptionsFor false none kw o :=
  Or.inr ⟨rfl, _, h, fun n => ⟨fun v hv => by rw [hv]; rfl, fun hn => by rw [hn]; simp⟩⟩

theorem savemat_opts {a : SaveArgs} {o : Options} (h : savematOptions a = .ok o) :
    (COpts.of o).matlab = true ∧ (COpts.of o).reverse = true ∧ (COpts.of o).refsPath = p!"/#refs#" ∧ (COpts.of o).complexNames = (p!"real", p!"imag") ∧
    (COpts.of o).keysName = p!"keys" ∧ (COpts.of o).valuesName = p!"values" ∧ (a.pyMeta = .bool true → (COpts.of o).pyMeta = true) ∧
    (a.action ≠ .str p!"ignore" → (COpts.of o).action ≠ .ignore) := by
  obtain ⟨h1, h2, h3⟩ := newOptions_value _ o h
  have hm := h1 true rfl
  have ht := h2 rfl
  have e1 := ht .reverseDimensionOrder (.bool true) (by simp [matlabTable])
  have e2 := ht .groupForReferences (.str p!"/#refs#") (by simp [matlabTable])
  have e3 := ht .complexNames (.tuple [.str p!"real", .str p!"imag"]) (by simp [matlabTable])
  have e4 := (h3 .dictLikeKeysName (by decide) (by rintro ⟨_, h⟩; revert h; simp [matlabTable])).1 ⟨_, rfl⟩
  have e5 := (h3 .dictLikeValuesName (by decide) (by rintro ⟨_, h⟩; revert h; simp [matlabTable])).1 ⟨_, rfl⟩
  have e6 := h3 .storePythonMetadata (by decide) (by rintro ⟨_, h⟩; revert h; simp [matlabTable])
  have e7 := h3 .actionForMatlabIncompatible (by decide) (by rintro ⟨_, h⟩; revert h; simp [matlabTable])
  have k6 : (kwGet [(Opt.storePythonMetadata, a.pyMeta), (.matlabCompatible, .bool true), (.onedAs, a.onedAs), (.actionForMatlabIncompatible, a.action)] .storePythonMetadata).getD
      (Options.default .storePythonMetadata) = a.pyMeta := rfl
  have k7 : (kwGet [(Opt.storePythonMetadata, a.pyMeta), (.matlabCompatible, .bool true), (.onedAs, a.onedAs), (.actionForMatlabIncompatible, a.action)] .actionForMatlabIncompatible).getD
      (Options.default .actionForMatlabIncompatible) = a.action := rfl
  rw [k6] at e6
  rw [k7] at e7
  have b : ∀ {n w}, o n = .bool w → boolOf o n = w := fun {n w} h => by unfold boolOf; rw [h]; rfl
  have st : ∀ {n w}, o n = .str w → strOf o n = w := fun {n w} h => by unfold strOf; rw [h]
  refine ⟨b hm, b e1, st e2, ?_, st e4, st e5, fun hp => b (by rw [e6.1 ⟨true, hp⟩, hp]), ?_⟩
  · simp only [COpts.of, e3]
  · intro hp
    have : strOf o .actionForMatlabIncompatible = p!"error" ∨ strOf o .actionForMatlabIncompatible = p!"discard" := by
      by_cases hv : validOpt .actionForMatlabIncompatible a.action
      · rcases id hv with hv' | hv' | hv'
        · exact absurd hv' hp
        · exact Or.inr (st (by rw [e7.1 hv, hv']))
        · exact Or.inl (st (by rw [e7.1 hv, hv']))
      · exact Or.inl (st (e7.2 hv))
    show (if _ then _ else _) ≠ _
    rcases this with h | h
    · rw [if_pos h]; decide
    · rw [h]; decide

theorem newOptions_congr {f g : Opt → PyVal} (h : ∀ n, f n = g n) : newOptions f = newOptions g := by rw [funext h]

theorem fileOptions_iff (a : FileArgs) (o : Options) : fileOptions a = .ok o ↔ OptionsFor false a.options a.kw o := by
  unfold fileOptions OptionsFor
  cases ha : a.options with
  | none =>
    constructor
    · intro h
      rcases kwOptions_for h with ⟨h, _⟩ | h
      · cases h
      · exact Or.inr h
    · rintro (⟨h, _⟩ | ⟨_, args, h, hk⟩)
      · cases h
      · refine Eq.trans (newOptions_congr fun n => ?_) h
        cases hg : kwGet a.kw n with
        | none => rw [(hk n).2 hg]; simp
        | some v => rw [(hk n).1 v hg]; rfl
  | some o' =>
    dsimp only
    constructor
    · intro h
      split at h
      · cases h
      · rename_i hl
        cases h
        exact Or.inl ⟨rfl, List.length_eq_zero_iff.mp (Decidable.not_not.mp hl)⟩
    · rintro (⟨h, hk⟩ | ⟨h, _⟩)
      · cases h
        rw [hk]; rfl
      · cases h

theorem kwGet_cons_ne {kw : List (Opt × PyVal)} {m n : Opt} {v : PyVal} (h : m ≠ n) : kwGet ((m, v) :: kw) n = kwGet kw n := by
  rw [kwGet, if_neg h]

theorem readOptions_iff (a : FileArgs) (o : Options) : fileOptions (readArgs a) = .ok o ↔ OptionsFor true a.options a.kw o := by
  rw [fileOptions_iff]
  unfold readArgs
  split
  · rename_i hc
    unfold OptionsFor
    constructor
    · rintro (h | ⟨h1, args, h2, h3⟩)
      · exact Or.inl h
      · refine Or.inr ⟨h1, args, h2, fun n => ⟨(h3 n).1, fun hn => ?_⟩⟩
        rw [(h3 n).2 hn, if_neg (by simp), if_neg]
        rintro ⟨_, rfl⟩
        rcases hc with hc | hc
        · rw [hn] at hc; cases hc
        · rw [h1] at hc; cases hc
    · rintro (h | ⟨h1, args, h2, h3⟩)
      · exact Or.inl h
      · refine Or.inr ⟨h1, args, h2, fun n => ⟨(h3 n).1, fun hn => ?_⟩⟩
        rw [(h3 n).2 hn, if_neg, if_neg (by simp)]
        rintro ⟨_, rfl⟩
        rcases hc with hc | hc
        · rw [hn] at hc; cases hc
        · rw [h1] at hc; cases hc
  · rename_i hc
    have hm : kwGet a.kw .matlabCompatible = none := by
      cases hg : kwGet a.kw .matlabCompatible with
      | none => rfl
      | some v => exact absurd (Or.inl (by rw [hg]; rfl)) hc
    have ho : a.options = none := by
      cases hg : a.options with
      | none => rfl
      | some v => exact absurd (Or.inr (by rw [hg]; rfl)) hc
    unfold OptionsFor
    dsimp only
    rw [ho]
    constructor
    · rintro (⟨h, _⟩ | ⟨_, args, h2, h3⟩)
      · cases h
      · refine Or.inr ⟨rfl, args, h2, fun n => ?_⟩
        by_cases hn : n = .matlabCompatible
        · subst hn
          refine ⟨fun v hv => (by rw [hm] at hv; cases hv), fun _ => ?_⟩
          rw [(h3 _).1 (.bool false) (by rw [kwGet, if_pos rfl]), if_pos ⟨rfl, rfl⟩]
        · have := h3 n
          rw [kwGet_cons_ne (Ne.symm hn)] at this
          refine ⟨this.1, fun h => ?_⟩
          rw [this.2 h, if_neg (by simp), if_neg (fun h => hn h.2)]
    · rintro (⟨h, _⟩ | ⟨_, args, h2, h3⟩)
      · cases h
      · refine Or.inr ⟨rfl, args, h2, fun n => ?_⟩
        by_cases hn : n = .matlabCompatible
        · subst hn
          have hv : args .matlabCompatible = .bool false := by rw [(h3 _).2 hm, if_pos ⟨rfl, rfl⟩]
          rw [kwGet, if_pos rfl]
          exact ⟨fun v h => by cases h; exact hv, nofun⟩
        · rw [kwGet_cons_ne (Ne.symm hn)]
          have := h3 n
          refine ⟨this.1, fun h => ?_⟩
          rw [this.2 h, if_neg (fun h => hn h.2), if_neg (by simp)]

theorem loadAll_ok {y : Ctx} {n : Nat} {F : FileS} {ks : List Str} (h : ∀ k ∈ ks, ∃ v s, fileRead y n (.str k) F = .ok v ∧ unescapePath k = .ok s)
    (data : List (PathArg × Val)) : ∃ r, loadAll y n F ks data = .ok r := by
  induction ks generalizing data with
  | nil => exact ⟨_, rfl⟩
  | cons k ks ih =>
    obtain ⟨v, s, h1, h2⟩ := h k (by simp)
    obtain ⟨r, hr⟩ := ih (fun k' hk => h k' (List.mem_cons_of_mem _ hk)) (pset data (.str s) v)
    exact ⟨r, by rw [loadAll, h1]; simp only [bind, Except.bind]; rw [h2]; exact hr⟩

/-- What `loadmat` does with an HDF5 file. -/
theorem loadmatTry_eq {x : Ctx} {n : Nat} {s t : Str} {a : LoadArgs} {d : Disk} {o : Options} {ub : Nat} {h : Heap} (hn : MatName a.appendmat s t)
    (ho : OptionsFor false a.options [] o) (hd : d t = some (.h5 ub h)) :
    loadmatTry x n (.str s) a d = (do
      let data ← loadData (x.with o) n (FileS.new h false) a.names
      .ok (updateDict (a.mdict.getD data) data)) := by
  have h1 : loadOptions a = .ok o := by
    unfold loadOptions
    rcases ho with ⟨h, _⟩ | ⟨h, hr⟩
    · rw [h]
    · rw [h]
      exact (fileOptions_iff ⟨.other, false, false, none, []⟩ o).mpr (Or.inr ⟨rfl, hr⟩)
  unfold loadmatTry
  rw [h1, (matName_of hn).2]
  simp only [bind, Except.bind, openRead, fileOptions, List.length_nil, ne_eq, not_true, if_false, hd, openDisk, Bool.not_false, if_true]

theorem updateDict_self {data m : List (PathArg × Val)} (h : (data.map (·.1)).Nodup) (mdict : Option (List (PathArg × Val))) (hm : m = mdict.getD data)
    (k : PathArg) : pget (updateDict m data) k = match pget data k with | some v => some v | none => pget (mdict.getD []) k := by
  rw [updateDict_get h]
  subst hm
  cases mdict with
  | some m => rfl
  | none =>
    cases hg : pget data k with
    | some v => rfl
    | none => simp [hg, pget]

/-! ### Opening and writing -/

theorem tree_empty : Tree emptyHeap := by
  have hl : ∀ p k q, ¬ LinkAt emptyHeap p k q := by
    intro p k q h
    unfold LinkAt linksOf emptyHeap at h
    cases p with
    | zero => cases h
    | succ p => simp [aget] at h
  exact ⟨fun _ _ _ h => (hl _ _ _ h).elim, rfl, fun _ _ h => hl _ _ _ h, fun _ _ _ _ _ h => (hl _ _ _ h).elim⟩

theorem empty_free {ns : List Str} (h : ns ≠ []) : ¬ Exists emptyHeap ns := by
  rintro ⟨q, hq⟩
  cases hq with
  | root => exact h rfl
  | snoc _ hk =>
    rename_i p k l
    unfold LinkAt linksOf emptyHeap at hk
    cases p with
    | zero => cases hk
    | succ p => simp [aget] at hk

theorem openDisk_cases {c : Option DFile} {te ti m : Bool} {ub : Nat} {h : Heap} (ho : openDisk c true te ti m = .ok (ub, h)) :
    h = emptyHeap ∨ c = some (.h5 ub h) := by
  unfold openDisk at ho
  simp only [Bool.not_true, Bool.false_eq_true, if_false] at ho
  cases c with
  | none => cases ho; exact Or.inl rfl
  | some c =>
    dsimp only at ho
    split at ho
    · cases ho; exact Or.inl rfl
    · cases c with
      | junk => cases ho
      | h5 ub' h' =>
        dsimp only at ho
        split at ho
        · cases ho; exact Or.inl rfl
        · cases ho; exact Or.inr rfl

theorem openDisk_empty {c : Option DFile} {te : Bool} (h : StartsEmpty c te) (ti m : Bool) : openDisk c true te ti m = .ok (512, emptyHeap) := by
  unfold openDisk
  simp only [Bool.not_true, Bool.false_eq_true, if_false]
  rcases h with rfl | rfl
  · rfl
  · cases c with
    | none => rfl
    | some c => simp

theorem modWrites_ok {x : Ctx} {n : Nat} {m : List (PathArg × Val)} {a : FileArgs} {d d' : Disk} {f : Str} {o : Options} (hf : a.filename = .str f)
    (ho : fileOptions a = .ok o) (h : modWrites x n m a d = (.ok (), d')) :
    ∃ ub hp F', openDisk (d f) true a.truncExisting a.truncInvalid (COpts.of o).matlab = .ok (ub, hp) ∧
      fileWrites (x.with o) n m (FileS.new hp true) = (.ok (), F') ∧ d' f = some (.h5 ub F'.st.heap) := by
  unfold modWrites at h
  rw [hf] at h
  dsimp only at h
  rw [ho] at h
  dsimp only at h
  cases hc : openDisk (d f) true a.truncExisting a.truncInvalid (COpts.of o).matlab with
  | error e => rw [hc] at h; cases h
  | ok c =>
    rw [hc] at h
    dsimp only at h
    have h1 := (Prod.mk.inj h).1
    have h2 := (Prod.mk.inj h).2
    refine ⟨c.1, c.2, _, rfl, Prod.ext h1 rfl, ?_⟩
    rw [← h2]
    simp [Disk.put]

theorem lpath_one {h : Heap} {k : Str} {q : Nat} : LPath h [k] q ↔ LinkAt h 0 k q := by
  constructor
  · intro hq
    obtain ⟨p, h1, h2⟩ := lpath_snoc (l := []) hq
    rw [lpath_nil h1] at h2
    exact h2
  · intro hq
    exact .snoc (l := []) .root hq

theorem writeAt_root {x : Ctx} {s s' : St} (ht : Tree s.heap) {gl : List Str} {g : Nat} {t k : Str} (hg : LPath s.heap gl g)
    (hns : OffRefs x.o (gl ++ [t])) (hk : (refsComps x.o).head? ≠ some k) (ha : ¬ (gl ++ [t]) <+: [k]) (f : Fr x (oneA g t) (TgtD s g t) s s') (q : Nat) :
    LinkAt s'.heap 0 k q ↔ LinkAt s.heap 0 k q := by
  have h0 : 0 < s.heap.length := isGroup_lt ht.root
  have := f.links 0 h0 (tgt_root ht) k (by
    rintro ⟨e1, e2⟩
    subst e1 e2
    have := hg.unique ht .root
    rw [this] at ha
    exact ha (List.prefix_refl _)) (by
    rintro (⟨_, pre, h1, h2⟩ | h2)
    · have := (lpath_resolve (prefix_plain (plainComps x) ((List.prefix_append pre [k]).trans h1)) h2).unique ht .root
      rw [this] at h1
      exact hk (head_prefix h1 (by simp)).symm
    · have := (lpath_resolve (plainComps x) h2.1).unique ht .root
      exact hns.refs this)
  unfold LinkAt
  rw [this]

theorem writeOne_root {x : Ctx} (hn : NamesOk x.o) {n : Nat} {s s' : St} {res : Res (Option Nat)} (hi : Inv x s) (ht : Tree s.heap) {gs t : Str} {v : Val} {k : Str}
    (ho : OffRefs x.o (commonComps gs ++ [t])) (hk : (refsComps x.o).head? ≠ some k) (ha : Apart (commonComps gs ++ [t]) [k]) (h : writeOne x n (gs, t) v s = (res, s'))
    (q : Nat) : LinkAt s'.heap 0 k q ↔ LinkAt s.heap 0 k q := by
  have hreq : ∀ {s1 : St} {r1 : Res Nat}, ReqG x (commonComps gs) s s1 r1 → (LinkAt s1.heap 0 k q ↔ LinkAt s.heap 0 k q) := by
    intro s1 r1 r
    rw [← lpath_one, ← lpath_one]
    refine ⟨fun h => ?_, lpath_mono r.mono⟩
    rcases r.only _ _ h with h | h
    · exact h
    · exact absurd (h.trans (List.prefix_append _ _)) ha.2
  unfold writeOne at h
  dsimp only at h
  rcases bind_run (requireGroup (commonComps gs)) (fun g => writeData x n g (absName (commonComps gs)) t v) s with ⟨g, s1, e1, e2⟩ | ⟨e, s1, e1, e2⟩
  · rw [e2] at h
    have r := requireGroup_user hi ht ho e1
    obtain ⟨r1, r2, _, _⟩ := r.ok g rfl
    have ht1 := tree_step ht r.step (fun h => h)
    have hp := ho.pre r.step.inv ht1 r1 (isGroup_lt r2)
    have po := writeData_post hn.keys hn.vals n s1 g _ t v s' res hp h
    exact (writeAt_root ht1 r1 ho hk ha.1 po.step.fr q).trans (hreq r)
  · rw [e2] at h; cases h
    exact hreq (requireGroup_user hi ht ho e1)

theorem writeMany_root {x : Ctx} (hn : NamesOk x.o) {n : Nat} {l : List ((Str × Str) × Val)} {s s' : St} {res : Res Unit} (hi : Inv x s) (ht : Tree s.heap) {k : Str}
    (ho : ∀ e ∈ l, OffRefs x.o (commonComps e.1.1 ++ [e.1.2]) ∧ Apart (commonComps e.1.1 ++ [e.1.2]) [k]) (hk : (refsComps x.o).head? ≠ some k)
    (h : writeMany x n l s = (res, s')) (q : Nat) : LinkAt s'.heap 0 k q ↔ LinkAt s.heap 0 k q := by
  induction l generalizing s with
  | nil => cases h; exact Iff.rfl
  | cons e l ih =>
    obtain ⟨⟨gs, t⟩, v⟩ := e
    obtain ⟨o1, o2⟩ := ho ((gs, t), v) (by simp)
    rw [writeMany] at h
    rcases bind_run (writeOne x n (gs, t) v) (fun _ => writeMany x n l) s with ⟨a, s1, e1, e2⟩ | ⟨e, s1, e1, e2⟩
    · rw [e2] at h
      obtain ⟨h1, h2⟩ := writeOne_keep hn hi ht o1 e1
      exact (ih h1 h2 (fun e he => ho e (by simp [he])) h).trans (writeOne_root hn hi ht o1 hk o2 e1 q)
    · rw [e2] at h; cases h
      exact writeOne_root hn hi ht o1 hk o2 e1 q

/-- What a call of `writes` does to other names at the root, be they names of Groups or Datasets or not. -/
theorem fileWrites_root {x : Ctx} (hr : RefsPathOk x.o) (hn : NamesOk x.o) {n : Nat} {F : FileS} (hi : Inv x F.st) (ht : Tree F.st.heap) {k : Str}
    {m : List (PathArg × Val)} (hk : (refsComps x.o).head? ≠ some k) (ha : ∀ pv ∈ m, ∀ ns, Addr pv.1 ns → Apart ns [k]) (q : Nat) :
    LinkAt (fileWrites x n m F).2.st.heap 0 k q ↔ LinkAt F.st.heap 0 k q := by
  unfold fileWrites
  split
  · exact Iff.rfl
  cases hc : checkItems x.o.refsPath m with
  | error e => exact Iff.rfl
  | ok tw =>
    dsimp only
    split
    · exact Iff.rfl
    cases hro : F.ro with
    | true => rw [runFile_ro _ hro]
    | false =>
      rw [runFile_rw _ hro]
      refine writeMany_root hn hi ht ?_ hk (run_eta (writeMany x n tw) F.st) q
      intro e he
      obtain ⟨pv, h1, h2, _⟩ := all2_right (checkItems_mem hc) e he
      obtain ⟨c1, h3, h4⟩ := checkPath_off hr h2
      obtain ⟨h5, h6⟩ := h3 (fun hd => (ha pv h1 _ (h4 hd)).1 List.nil_prefix)
      exact ⟨h5, ha pv h1 _ ⟨_, _, c1, h6.symm⟩⟩

theorem apart_one {a b : Str} (h : a ≠ b) : Apart [a] [b] := by
  constructor
  · intro hp
    have := List.prefix_iff_eq_take.mp hp
    simp at this
    exact h this
  · intro hp
    have := List.prefix_iff_eq_take.mp hp
    simp at this
    exact h this.symm

/-- What is at the root of a file after writing variables to an empty one. -/
theorem root_after {x : Ctx} (hr : RefsPathOk x.o) (hn : NamesOk x.o) {n : Nat} {items : List (Str × Val)} (hi : ∀ i ∈ items, VarName i.1) {k : Str}
    (hk : (hdf5Names x.o.refsPath).head? ≠ some k)
    (h : Exists (fileWrites x n (items.map fun i => (.str i.1, i.2)) (FileS.new emptyHeap true)).2.st.heap [k]) : k ∈ items.map (·.1) := by
  refine Classical.byContradiction fun hne => ?_
  obtain ⟨inv, tr⟩ := reach_keep hr hn (.opened emptyHeap true tree_empty)
  obtain ⟨p, hp⟩ := h
  have := (fileWrites_root (n := n) hr hn inv tr hk (m := items.map fun i => (.str i.1, i.2)) (by
      intro pv hpv ns hns
      obtain ⟨i, him, rfl⟩ := List.mem_map.mp hpv
      rw [addr_unique hns (hi i him).addr]
      exact apart_one fun e => hne (List.mem_map.mpr ⟨i, him, e⟩)) p).mp (lpath_one.mp hp)
  exact empty_free (by simp) ⟨p, lpath_one.mpr this⟩

end HS
