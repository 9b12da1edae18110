import Verif.Lemmas.Threads
/-
Threads that only read.
-/
namespace HS
open Spec

/-- No step changes anything. -/
def Looks : Prog → Prop
  | .ret _ => True
  | .lazy _ => True
  | .step f k => (∀ F, f F = F) ∧ ∀ F, Looks (k F)

/-- On this state the result will be this one. -/
def Gives (F : FileS) (r : Res Out) : Prog → Prop
  | .ret r' => r' = r
  | .lazy f => f F = r
  | .step f k => f F = F ∧ Gives F r (k F)

theorem looks_gives (F : FileS) (p : Prog) (h : Looks p) : Gives F (runProg p F).1 p := by
  induction p with
  | ret r => rfl
  | lazy f => rfl
  | step f k ih =>
    refine ⟨h.1 F, ?_⟩
    have := ih F (h.2 F)
    show Gives F (runProg (k F) (f F)).1 (k F)
    rw [h.1 F]
    exact this

/-- See `Gives`. -/
def CallGives (F : FileS) (r : Res Out) : Call → Prop
  | .now r' => r' = r
  | .look f => f F = r
  | .locked p => Gives F r p

/-- See `Gives`. -/
def StateGives (F : FileS) (r : Res Out) : TState → Prop
  | .idle => True
  | .ready _ cl => CallGives F r cl
  | .inside _ p => Gives F r p
  | .done _ r' => r' = r

theorem looks_ifOpen {p : Prog} (h : Looks p) : Looks (ifOpen p) := by
  refine ⟨fun _ => rfl, fun F => ?_⟩
  dsimp only
  split
  · exact h
  · trivial

theorem looks_readProg (x : Ctx) (n : Nat) (fin : List Val → Res Out) (l : List (Str × Str)) (acc : List Val) : Looks (readProg x n fin l acc) := by
  induction l generalizing acc with
  | nil => trivial
  | cons gt l ih =>
    refine ⟨fun _ => rfl, fun F => ?_⟩
    dsimp only
    split
    · exact ih _
    · trivial

theorem onlyReads_keeps {x : Ctx} {n : Nat} {op : Op} (h : OnlyReads op) (F : FileS) : (fileOp x n op F).2 = F := by
  cases op with
  | writes _ => exact h.elim
  | write _ _ => exact h.elim
  | del _ => exact h.elim
  | close => exact h.elim
  | flush => show (fileFlush F).2 = F; unfold fileFlush; split <;> rfl
  | _ => rfl

theorem callOf_gives (x : Ctx) (n : Nat) (F : FileS) {op : Op} (h : OnlyReads op) : CallGives F (fileOp x n op F).1 (callOf x n F.writable op) := by
  have key : ∀ p, callOf x n F.writable op = .locked p → op ≠ .iter → Looks p → CallGives F (fileOp x n op F).1 (callOf x n F.writable op) := by
    intro p hp hi hl
    have := callOf_ok x n F.writable op hi
    rw [hp] at this ⊢
    have h1 := looks_gives F p hl
    rw [this.1 F rfl] at h1
    exact h1
  have reads : ∀ (fin : List Val → Res Out) (ps : List PathArg), callOf x n F.writable op = readsCall x n fin ps → op ≠ .iter →
      CallGives F (fileOp x n op F).1 (callOf x n F.writable op) := by
    intro fin ps hp hi
    cases hc : checkPaths x.o.refsPath ps with
    | error e =>
      have := callOf_ok x n F.writable op hi
      rw [hp] at this ⊢
      unfold readsCall at this ⊢
      rw [hc] at this ⊢
      have this := this F rfl
      show Except.error e = _
      rw [this]
    | ok tr =>
      refine key _ (by rw [hp]; unfold readsCall; rw [hc]) hi (looks_ifOpen (looks_readProg _ _ _ _ _))
  cases op with
  | writes _ => exact h.elim
  | write _ _ => exact h.elim
  | del _ => exact h.elim
  | close => exact h.elim
  | reads ps => exact reads _ _ rfl (by simp)
  | read p => exact reads _ _ rfl (by simp)
  | len => exact key _ rfl (by simp) (looks_ifOpen ⟨fun _ => rfl, fun _ => trivial⟩)
  | flush => exact key _ rfl (by simp) (looks_ifOpen trivial)
  | closed => rfl
  | contains p =>
    cases hp : processPath p with
    | error e =>
      have := callOf_ok x n F.writable (.contains p) (by simp)
      unfold callOf at this ⊢
      dsimp only at this ⊢
      rw [hp] at this ⊢
      cases e <;> (have this := this F rfl; rw [this]; rfl)
    | ok gt =>
      have e : ∃ q, callOf x n F.writable (.contains p) = .locked q ∧ Looks q := by
        unfold callOf
        dsimp only
        rw [hp]
        exact ⟨_, rfl, looks_ifOpen ⟨fun _ => rfl, fun _ => trivial⟩⟩
      obtain ⟨q, e1, e2⟩ := e
      exact key q e1 (by simp) e2
  | iter =>
    have h1 := looks_gives F (ifOpen (.lazy fun F => if F.isOpen then outOf .names (fileIter x F) else .error .other)) (looks_ifOpen trivial)
    rw [run_ifOpen] at h1
    show Gives F (outOf .names (fileIter x F)) _
    cases ho : F.isOpen with
    | false =>
      rw [ho] at h1
      have : outOf .names (fileIter x F) = .error .osError := by unfold fileIter; rw [ho]; rfl
      rw [this]
      exact h1
    | true =>
      rw [ho, if_pos rfl] at h1
      have e : (runProg (.lazy fun F => if F.isOpen then outOf .names (fileIter x F) else .error .other) F).1 = outOf .names (fileIter x F) := by
        show (if F.isOpen then outOf Out.names (fileIter x F) else _) = _
        rw [ho]; rfl
      rw [e] at h1
      exact h1

/-- A call is made. -/
theorem lin_call {x : Ctx} {n : Nat} {F A : FileS} {H : List Event} {L : List Done} (h : Linearization x n F H L A) {id t : Nat} {op : Op} (hn : ∀ d ∈ L, d.id ≠ id) :
    Linearization x n F (H ++ [.call id t op]) L A where
  results := h.results
  state := h.state
  nodup := h.nodup
  calls := by
    intro d hd
    obtain ⟨u, hu⟩ := h.calls d hd
    exact ⟨u, by simp [hu]⟩
  returned := by
    intro id r hr
    exact h.returned id r (by simpa using hr)
  order := by
    rintro i j a b ha hb ⟨i', j', ea, eb, h1, h2, h3, h4, h5⟩
    rcases getElem?_snoc_cases h3 with ⟨hj, h3⟩ | ⟨_, h3⟩
    · rw [List.getElem?_append_left (by omega)] at h2
      exact h.order i j a b ha hb ⟨i', j', ea, eb, h1, h2, h3, h4, h5⟩
    · subst h3
      exact absurd (show b.id = id from h5.symm) (hn b (List.mem_of_getElem? hb))

/-- A call returns that has taken effect. -/
theorem lin_ret {x : Ctx} {n : Nat} {F A : FileS} {H : List Event} {L : List Done} (h : Linearization x n F H L A) {d : Done} (hd : d ∈ L) :
    Linearization x n F (H ++ [.ret d.id d.res]) L A where
  results := h.results
  state := h.state
  nodup := h.nodup
  calls := by
    intro d hd
    obtain ⟨u, hu⟩ := h.calls d hd
    exact ⟨u, by simp [hu]⟩
  returned := by
    intro id r hr
    rcases List.mem_append.mp hr with hr | hr
    · exact h.returned id r hr
    · rw [List.mem_singleton] at hr
      cases hr
      exact ⟨d, hd, rfl, rfl⟩
  order := by
    rintro i j a b ha hb ⟨i', j', ea, eb, h1, h2, h3, h4, h5⟩
    rcases getElem?_snoc_cases h3 with ⟨hj, h3⟩ | ⟨_, h3⟩
    · rw [List.getElem?_append_left (by omega)] at h2
      exact h.order i j a b ha hb ⟨i', j', ea, eb, h1, h2, h3, h4, h5⟩
    · subst h3
      exact h5.elim

/-- The invariant: nothing changes, and every call will return what it would return alone. -/
structure RInv (x : Ctx) (n : Nat) (F : FileS) (c : Conf) (L : List Done) : Prop where
  file : c.file = F
  lin : Linearization x n F c.hist L F
  old : ∀ d ∈ L, ∃ r, Event.ret d.id r ∈ c.hist
  th : ∀ t id, (c.th t).callId = some id → ∃ op, OnlyReads op ∧ Event.call id t op ∈ c.hist ∧ StateGives F (fileOp x n op F).1 (c.th t)
  ids : ∀ t id, (c.th t).callId = some id → id < c.next ∧ ∀ r, Event.ret id r ∉ c.hist
  excl : ∀ t u id, (c.th t).callId = some id → (c.th u).callId = some id → t = u
  hids : ∀ id t op, Event.call id t op ∈ c.hist → id < c.next

theorem rinv_step {x : Ctx} {n : Nat} {F : FileS} {c d : Conf} {L : List Done} (h : RInv x n F c L) (st : TStep (callOf x n F.writable) OnlyReads c d) :
    ∃ L', RInv x n F d L' := by
  -- going on with a call
  have keep : ∀ (t id : Nat) (s : TState), (c.th t).callId = some id → s.callId = some id →
      (∀ op, OnlyReads op → Event.call id t op ∈ c.hist → StateGives F (fileOp x n op F).1 (c.th t) → StateGives F (fileOp x n op F).1 s) →
      ∀ (d : Conf), d.file = F → d.th = setTh c.th t s → d.next = c.next → d.hist = c.hist → ∃ L', RInv x n F d L' := by
    intro t id s ht hs hg d e0 e1 e2 e3
    have key : ∀ u, (d.th u).callId = (c.th u).callId := by
      intro u
      rw [e1]
      by_cases hu : u = t
      · subst hu; rw [setTh_same, ht, hs]
      · rw [setTh_other _ _ hu]
    refine ⟨L, e0, by rw [e3]; exact h.lin, by rw [e3]; exact h.old, ?_, ?_, ?_, by rw [e2, e3]; exact h.hids⟩
    · intro u i hu
      rw [key] at hu
      obtain ⟨op, h1, h2, h3⟩ := h.th u i hu
      refine ⟨op, h1, by rw [e3]; exact h2, ?_⟩
      rw [e1]
      by_cases hut : u = t
      · subst hut
        rw [setTh_same]
        rw [ht] at hu
        cases hu
        exact hg op h1 h2 h3
      · rw [setTh_other _ _ hut]; exact h3
    · intro u i; rw [key, e2, e3]; exact h.ids u i
    · intro u v i; rw [key, key]; exact h.excl u v i
  cases st with
  | invoke t op ht hop =>
    have hnew : ∀ d ∈ L, d.id ≠ c.next := by
      intro d hd he
      obtain ⟨u, hu⟩ := h.lin.calls d hd
      have := h.hids _ _ _ hu
      omega
    refine ⟨L, h.file, lin_call h.lin hnew, ?_, ?_, ?_, ?_, ?_⟩
    · intro d hd
      obtain ⟨r, hr⟩ := h.old d hd
      exact ⟨r, by simp [hr]⟩
    · intro u i hu
      show ∃ op, _ ∧ _ ∧ StateGives F _ (setTh c.th t _ u)
      rcases callId_setTh hu with ⟨e, h1⟩ | ⟨hne, h1⟩
      · cases h1
        subst e
        refine ⟨op, hop, by simp, ?_⟩
        rw [setTh_same]
        exact callOf_gives x n F hop
      · obtain ⟨o, g1, g2, g3⟩ := h.th u i h1
        refine ⟨o, g1, by simp [g2], ?_⟩
        rw [setTh_other _ _ hne]; exact g3
    · intro u i hu
      rcases callId_setTh hu with ⟨_, h1⟩ | ⟨_, h1⟩
      · cases h1
        refine ⟨Nat.lt_succ_self _, ?_⟩
        intro r hr
        have hr : Event.ret c.next r ∈ c.hist := by simpa using hr
        obtain ⟨d, hd, e, _⟩ := h.lin.returned _ _ hr
        exact hnew d hd e
      · obtain ⟨g1, g2⟩ := h.ids u i h1
        exact ⟨Nat.lt_succ_of_lt g1, fun r hr => g2 r (by simpa using hr)⟩
    · intro u v i hu hv
      rcases callId_setTh hu with ⟨e1, h1⟩ | ⟨_, h1⟩
      · rcases callId_setTh hv with ⟨e2, h2⟩ | ⟨_, h2⟩
        · rw [e1, e2]
        · cases h1
          have := (h.ids v _ h2).1
          omega
      · rcases callId_setTh hv with ⟨e2, h2⟩ | ⟨_, h2⟩
        · cases h2
          have := (h.ids u _ h1).1
          omega
        · exact h.excl u v i h1 h2
    · intro i u o he
      rcases List.mem_append.mp he with he | he
      · exact Nat.lt_succ_of_lt (h.hids i u o he)
      · rw [List.mem_singleton] at he; cases he; exact Nat.lt_succ_self _
  | now t id r ht => exact keep t id _ (by rw [ht]; rfl) rfl (fun op _ _ hg => by rw [ht] at hg; exact hg) _ h.file rfl rfl rfl
  | look t id f ht => exact keep t id _ (by rw [ht]; rfl) rfl (fun op _ _ hg => by rw [ht] at hg; show f c.file = _; rw [h.file]; exact hg) _ h.file rfl rfl rfl
  | acquire t id p ht hl => exact keep t id _ (by rw [ht]; rfl) rfl (fun op _ _ hg => by rw [ht] at hg; exact hg) _ h.file rfl rfl rfl
  | run t id f k ht =>
    have hid : (c.th t).callId = some id := by rw [ht]; rfl
    obtain ⟨op, _, _, hg⟩ := h.th t id hid
    rw [ht] at hg
    exact keep t id _ hid rfl (fun op _ _ hg => by rw [ht] at hg; show Gives F _ (k c.file); rw [h.file]; exact hg.2) _ (by show f c.file = F; rw [h.file]; exact hg.1) rfl rfl rfl
  | release t id r ht => exact keep t id _ (by rw [ht]; rfl) rfl (fun op _ _ hg => by rw [ht] at hg; exact hg) _ h.file rfl rfl rfl
  | leave t id f ht => exact keep t id _ (by rw [ht]; rfl) rfl (fun op _ _ hg => by rw [ht] at hg; exact hg) _ h.file rfl rfl rfl
  | ret t id r ht =>
    have hid : (c.th t).callId = some id := by rw [ht]; rfl
    obtain ⟨op, ho, hc, hg⟩ := h.th t id hid
    rw [ht] at hg
    have hg : r = (fileOp x n op F).1 := hg
    have hnr := (h.ids t id hid).2
    have hn : ∀ d ∈ L, d.id ≠ id := by
      intro d hd he
      obtain ⟨r', hr'⟩ := h.old d hd
      rw [he] at hr'
      exact hnr r' hr'
    have hl := lin_snoc (r := r) h.lin (show fileOp x n op F = (r, F) by rw [hg]; exact Prod.ext rfl (onlyReads_keeps ho F)) hn hc hnr
    refine ⟨L ++ [⟨id, op, r⟩], h.file, lin_ret hl (d := ⟨id, op, r⟩) (by simp), ?_, ?_, ?_, ?_, ?_⟩
    · intro d hd
      rcases List.mem_append.mp hd with hd | hd
      · obtain ⟨r', hr'⟩ := h.old d hd
        exact ⟨r', by simp [hr']⟩
      · rw [List.mem_singleton] at hd
        subst hd
        exact ⟨r, by simp⟩
    · intro u i hu
      show ∃ op, _ ∧ _ ∧ StateGives F _ (setTh c.th t _ u)
      rcases callId_setTh hu with ⟨_, h1⟩ | ⟨hne, h1⟩
      · cases h1
      · obtain ⟨o, g1, g2, g3⟩ := h.th u i h1
        refine ⟨o, g1, by simp [g2], ?_⟩
        rw [setTh_other _ _ hne]; exact g3
    · intro u i hu
      rcases callId_setTh hu with ⟨_, h1⟩ | ⟨hne, h1⟩
      · cases h1
      · obtain ⟨g1, g2⟩ := h.ids u i h1
        refine ⟨g1, ?_⟩
        intro r' hr
        rcases List.mem_append.mp hr with hr | hr
        · exact g2 r' hr
        · rw [List.mem_singleton] at hr
          cases hr
          exact hne (h.excl u t id h1 hid)
    · intro u v i hu hv
      rcases callId_setTh hu with ⟨_, h1⟩ | ⟨_, h1⟩
      · cases h1
      · rcases callId_setTh hv with ⟨_, h2⟩ | ⟨_, h2⟩
        · cases h2
        · exact h.excl u v i h1 h2
    · intro i u o he
      exact h.hids i u o (by simpa using he)

theorem reads_linearizable {x : Ctx} {n : Nat} {F : FileS} {c : Conf} (hr : TRun (callOf x n F.writable) OnlyReads (Conf.init F) c) :
    c.file = F ∧ ∃ L, Linearization x n F c.hist L F := by
  suffices h : ∃ L, RInv x n F c L by
    obtain ⟨L, h⟩ := h
    exact ⟨h.file, L, h.lin⟩
  induction hr with
  | refl =>
    exact ⟨[], rfl, ⟨rfl, rfl, by simp, by simp, by simp [Conf.init], by simp⟩, (by intro d hd; cases hd), (by intro t id h; cases h), (by intro t id h; cases h),
      (by intro t u id h; cases h), by intro id t op h; cases h⟩
  | step _ st ih =>
    obtain ⟨L, h⟩ := ih
    exact rinv_step h st

end HS
