import Verif.Spec.Shared
import Verif.Props.Options
/-
Invariants of the objects of a process.
-/
namespace HS
open Spec

/-- User and Files refer to different objects, no object twice by the user, all exist, and all values come from assignments. -/
structure ProcInv (s : Proc) : Prop where
  nodup : s.user.Nodup
  user : ∀ i ∈ s.user, i < s.opts.length
  files : ∀ i ∈ s.files, i < s.opts.length
  apart : ∀ i ∈ s.files, i ∉ s.user
  vals : ∀ o ∈ s.opts, ReachableOptions o.vals

/-- What a step keeps: objects that are not assigned, references, collections not called. -/
structure ProcKeep (s t : Proc) (a : PAct) : Prop where
  user : ∃ l, t.user = s.user ++ l
  files : ∃ l, t.files = s.files ++ l
  opts : ∀ (i : Nat) o, s.opts[i]? = some o → (∀ u : Nat, s.user[u]? = some i → NotAssigned u a) → t.opts[i]? = some o
  colls : ∀ (c : Nat) k, s.colls[c]? = some k → (∀ o, a ≠ .coll c o) → t.colls[c]? = some k

theorem reachable_new {kw : List (Opt × PyVal)} {o : Options} (h : kwOptions kw = .ok o) : ReachableOptions o := ⟨_, o, [], h, rfl⟩

theorem reachable_assign {o : Options} (h : ReachableOptions o) (nv : Opt × PyVal) : ReachableOptions (assign o nv) := by
  obtain ⟨args, o0, l, h1, rfl⟩ := h
  exact ⟨args, o0, l ++ [nv], h1, by rw [List.foldl_append]; rfl⟩

theorem getElem?_snoc {α : Type} {l : List α} {i : Nat} {a : α} (x : α) (h : l[i]? = some a) : (l ++ [x])[i]? = some a := by
  rw [List.getElem?_append_left (List.getElem?_eq_some_iff.1 h).1]; exact h

/-- New Options. -/
theorem makeOpts_run (kw : List (Opt × PyVal)) (mc : Option Nat) (s : Proc) :
    (∃ o, kwOptions kw = .ok o ∧ s.makeOpts kw mc = ({ s with opts := s.opts ++ [⟨o, mc.getD s.dflt⟩] }, .ok s.opts.length)) ∨
    ∃ e, kwOptions kw = .error e ∧ s.makeOpts kw mc = (s, .error e) := by
  unfold Proc.makeOpts
  cases h : kwOptions kw with
  | error e => exact .inr ⟨e, rfl, rfl⟩
  | ok o => exact .inl ⟨o, rfl, rfl⟩

/-- A new collection. -/
theorem makeColl_run (a : CollArgs) (s : Proc) :
    (∃ c w, s.makeColl a = ({ s with colls := s.colls ++ [c], world := w }, .ok s.colls.length)) ∨ ∃ e w, s.makeColl a = ({ s with world := w }, .error e) := by
  unfold Proc.makeColl
  cases h : newCollection a.env a.builtin a.eps s.world a.load a.lazy a.priority a.user with
  | mk c r =>
    cases r with
    | error e => exact .inr ⟨e, c.world, rfl⟩
    | ok _ => exact .inl ⟨c.coll, c.world, rfl⟩

/-- The options of a File are a new object. -/
theorem fileOpts_run (a : OptArg) (s : Proc) :
    (∃ o, s.fileOpts a = ({ s with opts := s.opts ++ [o] }, .ok s.opts.length) ∧
      ((∃ u, a = .given u [] ∧ UserHas s u o) ∨ ∃ kw mc, a = .keywords kw mc ∧ kwOptions kw = .ok o.vals ∧ o.coll = mc.getD s.dflt)) ∨
    ∃ e, s.fileOpts a = (s, .error e) := by
  cases a with
  | keywords kw mc =>
    rcases makeOpts_run kw mc s with ⟨o, h1, h2⟩ | ⟨e, _, h2⟩
    · exact .inl ⟨_, h2, .inr ⟨kw, mc, rfl, h1, rfl⟩⟩
    · exact .inr ⟨e, h2⟩
  | given u kw =>
    unfold Proc.fileOpts
    dsimp only
    cases h : s.user[u]? with
    | none => exact .inr ⟨_, rfl⟩
    | some i =>
      dsimp only
      cases h2 : s.opts[i]? with
      | none => exact .inr ⟨_, rfl⟩
      | some o =>
        dsimp only
        cases kw with
        | nil => exact .inl ⟨o, rfl, .inl ⟨u, rfl, i, h, h2⟩⟩
        | cons x r => exact .inr ⟨_, rfl⟩

theorem fileOpts_reach {a : OptArg} {s : Proc} {o : OptObj} (hs : ProcInv s)
    (h : (∃ u, a = .given u [] ∧ UserHas s u o) ∨ ∃ kw mc, a = .keywords kw mc ∧ kwOptions kw = .ok o.vals ∧ o.coll = mc.getD s.dflt) : ReachableOptions o.vals := by
  rcases h with ⟨u, _, i, _, h2⟩ | ⟨kw, mc, _, h, _⟩
  · exact hs.vals _ (List.mem_of_getElem? h2)
  · exact reachable_new h

theorem proc_mono {s : Proc} (hs : ProcInv s) {t : Proc} (h1 : t.user = s.user) (h2 : t.files = s.files) (o : OptObj) (hv : ReachableOptions o.vals)
    (h3 : t.opts = s.opts ++ [o]) : ProcInv t where
  nodup := h1 ▸ hs.nodup
  user i hi := by rw [h3, List.length_append]; exact Nat.lt_of_lt_of_le (hs.user i (h1 ▸ hi)) (Nat.le_add_right _ _)
  files i hi := by rw [h3, List.length_append]; exact Nat.lt_of_lt_of_le (hs.files i (h2 ▸ hi)) (Nat.le_add_right _ _)
  apart i hi := h1 ▸ hs.apart i (h2 ▸ hi)
  vals p hp := by
    rw [h3, List.mem_append] at hp
    rcases hp with hp | hp
    · exact hs.vals p hp
    · rw [List.mem_singleton.1 hp]; exact hv

theorem proc_set {s : Proc} (hs : ProcInv s) (i : Nat) (o : OptObj) (hv : ReachableOptions o.vals) : ProcInv { s with opts := s.opts.set i o } where
  nodup := hs.nodup
  user j hj := by rw [List.length_set]; exact hs.user j hj
  files j hj := by rw [List.length_set]; exact hs.files j hj
  apart := hs.apart
  vals p hp := by
    rcases List.mem_or_eq_of_mem_set hp with hp | hp
    · exact hs.vals p hp
    · rw [hp]; exact hv

theorem proc_same {s t : Proc} (hs : ProcInv s) (h1 : t.user = s.user) (h2 : t.files = s.files) (h3 : t.opts = s.opts) : ProcInv t where
  nodup := h1 ▸ hs.nodup
  user := h1 ▸ h3 ▸ hs.user
  files := h2 ▸ h3 ▸ hs.files
  apart := h1 ▸ h2 ▸ hs.apart
  vals := h3 ▸ hs.vals

theorem keep_same {s t : Proc} (a : PAct) (h1 : t.user = s.user) (h2 : t.files = s.files) (h3 : ∃ l, t.opts = s.opts ++ l) (h4 : ∃ l, t.colls = s.colls ++ l) :
    ProcKeep s t a where
  user := ⟨[], by simp [h1]⟩
  files := ⟨[], by simp [h2]⟩
  opts i o h _ := by
    obtain ⟨l, h3⟩ := h3
    rw [h3, List.getElem?_append_left (List.getElem?_eq_some_iff.1 h).1]; exact h
  colls i o h _ := by
    obtain ⟨l, h4⟩ := h4
    rw [h4, List.getElem?_append_left (List.getElem?_eq_some_iff.1 h).1]; exact h

theorem keep_set {s : Proc} (a : PAct) {u i : Nat} (hu : s.user[u]? = some i) (hn : ¬ NotAssigned u a) (o : OptObj) :
    ProcKeep s { s with opts := s.opts.set i o } a where
  user := ⟨[], by simp⟩
  files := ⟨[], by simp⟩
  opts j p h hj := by
    have : i ≠ j := by
      intro e
      exact hn (hj u (e ▸ hu))
    show (s.opts.set i o)[j]? = some p
    rw [List.getElem?_set_ne this]; exact h
  colls j p h _ := h

theorem keep_user {s t : Proc} {a : PAct} (h : ProcKeep s t a) (i : Nat) : ProcKeep s { t with user := t.user ++ [i] } a where
  user := by
    obtain ⟨l, hl⟩ := h.user
    exact ⟨l ++ [i], by simp [hl]⟩
  files := h.files
  opts := h.opts
  colls := h.colls

theorem keep_files {s t : Proc} {a : PAct} (h : ProcKeep s t a) (i : Nat) : ProcKeep s { t with files := t.files ++ [i] } a where
  files := by
    obtain ⟨l, hl⟩ := h.files
    exact ⟨l ++ [i], by simp [hl]⟩
  user := h.user
  opts := h.opts
  colls := h.colls

/-- Every step. -/
theorem proc_step {s : Proc} (hs : ProcInv s) (a : PAct) : ProcInv (s.step a).1 ∧ ProcKeep s (s.step a).1 a := by
  cases a with
  | newColl a =>
    rcases makeColl_run a s with ⟨c, w, h⟩ | ⟨e, w, h⟩ <;> simp only [Proc.step, h]
    · exact ⟨proc_same hs rfl rfl rfl, keep_same _ rfl rfl ⟨[], by simp⟩ ⟨_, rfl⟩⟩
    · exact ⟨proc_same hs rfl rfl rfl, keep_same _ rfl rfl ⟨[], by simp⟩ ⟨[], by simp⟩⟩
  | newDefault a =>
    rcases makeColl_run a s with ⟨c, w, h⟩ | ⟨e, w, h⟩ <;> simp only [Proc.step, Proc.newDefault, h]
    · exact ⟨proc_same hs rfl rfl rfl, keep_same _ rfl rfl ⟨[], by simp⟩ ⟨_, rfl⟩⟩
    · exact ⟨proc_same hs rfl rfl rfl, keep_same _ rfl rfl ⟨[], by simp⟩ ⟨[], by simp⟩⟩
  | coll c o =>
    simp only [Proc.step]
    cases h : s.colls[c]? with
    | none => exact ⟨hs, keep_same _ rfl rfl ⟨[], by simp⟩ ⟨[], by simp⟩⟩
    | some k =>
      refine ⟨proc_same hs rfl rfl rfl, ?_⟩
      refine { user := ⟨[], by simp⟩, files := ⟨[], by simp⟩, opts := fun i o h _ => h, colls := ?_ }
      intro j p hj hne
      have : c ≠ j := fun e => hne o (by rw [e])
      show (s.colls.set c _)[j]? = some p
      rw [List.getElem?_set_ne this]; exact hj
  | newOpts kw mc =>
    rcases makeOpts_run kw mc s with ⟨o, h1, h⟩ | ⟨e, _, h⟩ <;> simp only [Proc.step, h]
    · have hi := proc_mono hs (t := { s with opts := s.opts ++ [⟨o, mc.getD s.dflt⟩] }) rfl rfl _ (reachable_new h1) rfl
      refine ⟨?_, keep_user (s := s) (t := { s with opts := s.opts ++ [⟨o, mc.getD s.dflt⟩] }) (keep_same _ rfl rfl ⟨_, rfl⟩ ⟨[], by simp⟩) _⟩
      refine { nodup := ?_, user := ?_, files := hi.files, apart := ?_, vals := hi.vals }
      · refine List.nodup_append.2 ⟨hs.nodup, by simp, ?_⟩
        intro a ha b hb e
        rw [List.mem_singleton] at hb
        exact Nat.lt_irrefl _ (by have := hs.user a ha; rw [e, hb] at this; exact this)
      · intro i hi'
        rcases List.mem_append.1 hi' with h' | h'
        · exact hi.user i h'
        · rw [List.mem_singleton.1 h']
          show s.opts.length < (s.opts ++ [_]).length
          simp
      · intro i hi' hm
        rcases List.mem_append.1 hm with h' | h'
        · exact hs.apart i hi' h'
        · rw [List.mem_singleton] at h'
          exact Nat.lt_irrefl _ (by have := hs.files i hi'; rw [h'] at this; exact this)
    · exact ⟨hs, keep_same _ rfl rfl ⟨[], by simp⟩ ⟨[], by simp⟩⟩
  | setOpt u n v =>
    simp only [Proc.step]
    have h0 : ProcInv s ∧ ProcKeep s s (.setOpt u n v) := ⟨hs, keep_same _ rfl rfl ⟨[], by simp⟩ ⟨[], by simp⟩⟩
    cases h : s.user[u]? with
    | none => exact h0
    | some i =>
      dsimp only
      cases h2 : s.opts[i]? with
      | none => exact h0
      | some o => exact ⟨proc_set hs i _ (reachable_assign (hs.vals _ (List.mem_of_getElem? h2)) _), keep_set _ h (fun hn => hn.1 n v rfl) _⟩
  | setColl u c =>
    simp only [Proc.step]
    have h0 : ProcInv s ∧ ProcKeep s s (.setColl u c) := ⟨hs, keep_same _ rfl rfl ⟨[], by simp⟩ ⟨[], by simp⟩⟩
    cases h : s.user[u]? with
    | none => exact h0
    | some i =>
      dsimp only
      cases h2 : s.opts[i]? with
      | none => exact h0
      | some o => exact ⟨proc_set hs i { o with coll := c.getD o.coll } (hs.vals o (List.mem_of_getElem? h2)), keep_set _ h (fun hn => hn.2 c rfl) _⟩
  | openFile a opens =>
    simp only [Proc.step]
    rcases fileOpts_run a s with ⟨o, h, ho⟩ | ⟨e, h⟩ <;> simp only [h]
    · have hi := proc_mono hs (t := { s with opts := s.opts ++ [o] }) rfl rfl _ (fileOpts_reach hs ho) rfl
      have hk : ProcKeep s { s with opts := s.opts ++ [o] } (.openFile a opens) := keep_same _ rfl rfl ⟨_, rfl⟩ ⟨[], by simp⟩
      cases opens with
      | false => exact ⟨hi, hk⟩
      | true =>
        refine ⟨?_, keep_files hk _⟩
        refine { nodup := hi.nodup, user := hi.user, files := ?_, apart := ?_, vals := hi.vals }
        · intro i hi'
          rcases List.mem_append.1 hi' with h' | h'
          · exact hi.files i h'
          · rw [List.mem_singleton.1 h']
            show s.opts.length < (s.opts ++ [_]).length
            simp
        · intro i hi' hm
          rcases List.mem_append.1 hi' with h' | h'
          · exact hs.apart i h' hm
          · rw [List.mem_singleton] at h'
            exact Nat.lt_irrefl _ (by have := hs.user i hm; rw [h'] at this; exact this)
    · exact ⟨hs, keep_same _ rfl rfl ⟨[], by simp⟩ ⟨[], by simp⟩⟩

theorem start_inv (c : Coll) (w : World) : ProcInv (Proc.start c w) :=
  { nodup := by simp [Proc.start], user := by simp [Proc.start], files := by simp [Proc.start], apart := by simp [Proc.start], vals := by simp [Proc.start] }

theorem run_inv (l : List PAct) : ∀ s : Proc, ProcInv s → ProcInv (s.run l) := by
  induction l with
  | nil => exact fun s h => h
  | cons a l ih => exact fun s h => ih _ (proc_step h a).1

theorem reachProc_inv {s : Proc} (h : ReachProc s) : ProcInv s := by
  obtain ⟨c, w, l, rfl⟩ := h
  exact run_inv l _ (start_inv c w)

theorem ref_kept {l l' : List Nat} {u i : Nat} (h : l[u]? = some i) (h' : ∃ m, l' = l ++ m) : l'[u]? = some i := by
  obtain ⟨m, rfl⟩ := h'
  rw [List.getElem?_append_left (List.getElem?_eq_some_iff.1 h).1]; exact h

/-- The options of a File never change. -/
theorem file_kept (l : List PAct) : ∀ s : Proc, ProcInv s → ∀ f o, FileHas s f o → FileHas (s.run l) f o := by
  induction l with
  | nil => exact fun s _ f o h => h
  | cons a l ih =>
    intro s hs f o h
    refine ih _ (proc_step hs a).1 f o ?_
    obtain ⟨i, h1, h2⟩ := h
    have k := (proc_step hs a).2
    refine ⟨i, ref_kept h1 k.files, k.opts i o h2 ?_⟩
    intro u hu
    exact absurd (List.mem_of_getElem? hu) (hs.apart i (List.mem_of_getElem? h1))

end HS
