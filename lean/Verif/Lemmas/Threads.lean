import Verif.Lemmas.FileApi
import Verif.Spec.Linear
/-
Locking makes any division into steps atomic.
-/
namespace HS
open Spec

/-- Only the last step opens or closes the file. -/
def Quiet : Prog → Prop
  | .ret _ => True
  | .lazy _ => False
  | .step f k => ∀ F, Quiet (k F) ∧ ((f F).isOpen = F.isOpen ∨ ∃ r, k F = .ret r)

/-- The call is executed correctly if not interrupted (`w` is `self._writable`), and what it does without the lock only concerns whether the file is open. -/
def Implements (x : Ctx) (n : Nat) (w : Bool) (op : Op) : Call → Prop
  | .now r => ∀ F, F.writable = w → fileOp x n op F = (r, F)
  | .look f => (∀ F, F.writable = w → fileOp x n op F = (f F, F)) ∧ ∀ F G, F.isOpen = G.isOpen → f F = f G
  | .locked p => (∀ F, F.writable = w → runProg p F = fileOp x n op F) ∧ Quiet p

theorem fileOps_snoc (x : Ctx) (n : Nat) (l : List Op) (op : Op) (F : FileS) :
    fileOps x n (l ++ [op]) F = ((fileOps x n l F).1 ++ [(fileOp x n op (fileOps x n l F).2).1], (fileOp x n op (fileOps x n l F).2).2) := by
  induction l generalizing F with
  | nil => rfl
  | cons a l ih =>
    show (((fileOp x n a F).1 :: (fileOps x n (l ++ [op]) (fileOp x n a F).2).1, (fileOps x n (l ++ [op]) (fileOp x n a F).2).2) : List (Res Out) × FileS) = _
    rw [ih]; rfl

theorem runFile_writable {α : Type} (F : FileS) (m : M α) : (runFile F m).2.writable = F.writable ∧ (runFile F m).2.isOpen = F.isOpen ∧ (runFile F m).2.ro = F.ro := by
  unfold runFile
  dsimp only
  split
  · exact ⟨rfl, rfl, rfl⟩
  · exact ⟨rfl, rfl, rfl⟩

theorem fileWrites_writable (x : Ctx) (n : Nat) (m : List (PathArg × Val)) (F : FileS) : (fileWrites x n m F).2.writable = F.writable := by
  unfold fileWrites
  split
  · rfl
  cases checkItems x.o.refsPath m with
  | error e => rfl
  | ok tw =>
    dsimp only
    split
    · rfl
    · exact (runFile_writable _ _).1

theorem fileOp_writable (x : Ctx) (n : Nat) (op : Op) (F : FileS) : (fileOp x n op F).2.writable = F.writable := by
  cases op with
  | writes m => exact fileWrites_writable x n m F
  | write p v => exact fileWrites_writable x n _ F
  | del p =>
    show (fileDel p F).2.writable = _
    unfold fileDel
    split
    · rfl
    cases processPath p with
    | error e => rfl
    | ok gt =>
      dsimp only
      split
      · rfl
      cases pJoin [gt.1, gt.2] with
      | error e => rfl
      | ok j => exact (runFile_writable _ _).1
  | flush => show (fileFlush F).2.writable = _; unfold fileFlush; split <;> rfl
  | _ => rfl

/-- The number of the call a thread is executing. -/
def TState.callId : TState → Option Nat
  | .idle => none
  | .ready id _ => some id
  | .inside id _ => some id
  | .done id _ => some id

/-- What is known about a thread: `L` are the calls that have taken effect, `A` the state they lead to. -/
def ThreadOk (x : Ctx) (n : Nat) (impl : Op → Call) (ops : Op → Prop) (c : Conf) (L : List Done) (A : FileS) (t : Nat) : TState → Prop
  | .idle => True
  | .ready id cl => (∀ d ∈ L, d.id ≠ id) ∧ ∃ op, ops op ∧ cl = impl op ∧ Event.call id t op ∈ c.hist
  | .inside id (.step f k) => (∀ d ∈ L, d.id ≠ id) ∧ c.lock = some t ∧ Quiet (.step f k) ∧
      ∃ op, ops op ∧ Event.call id t op ∈ c.hist ∧ runProg (.step f k) c.file = fileOp x n op A
  | .inside id (.ret r) => c.lock = some t ∧ c.file = A ∧ ∃ op, ⟨id, op, r⟩ ∈ L
  | .inside _ (.lazy _) => False
  | .done id r => ∃ op, ⟨id, op, r⟩ ∈ L

/-- The invariant. -/
structure TInv (x : Ctx) (n : Nat) (w : Bool) (impl : Op → Call) (ops : Op → Prop) (F : FileS) (c : Conf) (L : List Done) (A : FileS) : Prop where
  lin : Linearization x n F c.hist L A
  wr : A.writable = w
  opn : c.file.isOpen = A.isOpen
  free : c.lock = none → c.file = A
  th : ∀ t, ThreadOk x n impl ops c L A t (c.th t)
  ids : ∀ t id, (c.th t).callId = some id → id < c.next ∧ ∀ r, Event.ret id r ∉ c.hist
  excl : ∀ t u id, (c.th t).callId = some id → (c.th u).callId = some id → t = u
  hids : ∀ id t op, Event.call id t op ∈ c.hist → id < c.next

theorem lin_snoc {x : Ctx} {n : Nat} {F A A' : FileS} {H : List Event} {L : List Done} (h : Linearization x n F H L A) {id t : Nat} {op : Op} {r : Res Out}
    (ho : fileOp x n op A = (r, A')) (hn : ∀ d ∈ L, d.id ≠ id) (hc : Event.call id t op ∈ H) (hr : ∀ r, Event.ret id r ∉ H) :
    Linearization x n F H (L ++ [⟨id, op, r⟩]) A' where
  results := by
    rw [List.map_append, List.map_append, List.map_cons, List.map_nil, fileOps_snoc, h.state, h.results, ho]; rfl
  state := by
    rw [List.map_append, List.map_cons, List.map_nil, fileOps_snoc, h.state, ho]
  nodup := by
    rw [List.map_append, List.map_cons, List.map_nil, List.nodup_append]
    refine ⟨h.nodup, by simp, ?_⟩
    rintro a ha b hb rfl
    rw [List.mem_singleton] at hb
    obtain ⟨d, hd, e⟩ := List.mem_map.mp ha
    exact hn d hd (e.trans hb)
  calls := by
    intro d hd
    rcases List.mem_append.mp hd with hd | hd
    · exact h.calls d hd
    · rw [List.mem_singleton] at hd; subst hd; exact ⟨t, hc⟩
  returned := by
    intro i r' hi
    obtain ⟨d, hd, e⟩ := h.returned i r' hi
    exact ⟨d, List.mem_append.mpr (Or.inl hd), e⟩
  order := by
    intro i j a b hi hj hb
    obtain ⟨i', j', ea, eb, h1, h2, h3, h4, h5⟩ := hb
    -- the first call has returned, so it is an old one
    have hia : i < L.length := by
      rw [List.getElem?_append] at hi
      split at hi
      · assumption
      · exfalso
        have : a = ⟨id, op, r⟩ := by
          have := List.mem_of_getElem? hi
          rwa [List.mem_singleton] at this
        subst this
        cases ea with
        | call _ _ _ => exact h4
        | ret k r' =>
          have h4 : k = id := h4
          subst h4
          exact hr r' (List.mem_of_getElem? h2)
    by_cases hjb : j < L.length
    · refine h.order i j a b ?_ ?_ ⟨i', j', ea, eb, h1, h2, h3, h4, h5⟩
      · rwa [List.getElem?_append_left hia] at hi
      · rwa [List.getElem?_append_left hjb] at hj
    · omega

theorem threadOk_hist {x : Ctx} {n : Nat} {impl : Op → Call} {ops : Op → Prop} {c c' : Conf} {L : List Done} {A : FileS} {t : Nat} {s : TState}
    (h : ThreadOk x n impl ops c L A t s) (hl : c'.lock = c.lock) (hf : c'.file = c.file) (hh : ∀ e ∈ c.hist, e ∈ c'.hist) : ThreadOk x n impl ops c' L A t s := by
  cases s with
  | idle => trivial
  | ready id cl =>
    obtain ⟨h1, op, h2, h3, h4⟩ := h
    exact ⟨h1, op, h2, h3, hh _ h4⟩
  | inside id p =>
    cases p with
    | lazy f => exact h.elim
    | ret r =>
      obtain ⟨h1, h2, h3⟩ := h
      exact ⟨by rw [hl]; exact h1, by rw [hf]; exact h2, h3⟩
    | step f k =>
      obtain ⟨h1, h2, h3, op, h4, h5, h6⟩ := h
      exact ⟨h1, by rw [hl]; exact h2, h3, op, h4, hh _ h5, by rw [hf]; exact h6⟩
  | done id r => exact h

/-- Another thread's call takes effect, not under this thread's lock. -/
theorem threadOk_other {x : Ctx} {n : Nat} {impl : Op → Call} {ops : Op → Prop} {c c' : Conf} {L L' : List Done} {A : FileS} {t : Nat} {s : TState}
    (h : ThreadOk x n impl ops c L A t s) (hl : c'.lock = c.lock) (hf : c'.file = c.file) (hh : c'.hist = c.hist)
    (hL : ∀ d ∈ L, d ∈ L') (hnew : ∀ d ∈ L', d ∈ L ∨ s.callId ≠ some d.id) : ThreadOk x n impl ops c' L' A t s := by
  cases s with
  | idle => trivial
  | ready id cl =>
    obtain ⟨h1, op, h2, h3, h4⟩ := h
    refine ⟨?_, op, h2, h3, by rw [hh]; exact h4⟩
    intro d hd he
    rcases hnew d hd with h | h
    · exact h1 d h he
    · exact h (by rw [he]; rfl)
  | inside id p =>
    cases p with
    | lazy f => exact h.elim
    | ret r =>
      obtain ⟨h1, h2, op, h3⟩ := h
      exact ⟨by rw [hl]; exact h1, by rw [hf]; exact h2, op, hL _ h3⟩
    | step f k =>
      obtain ⟨h1, h2, h3, op, h4, h5, h6⟩ := h
      refine ⟨?_, by rw [hl]; exact h2, h3, op, h4, by rw [hh]; exact h5, by rw [hf]; exact h6⟩
      intro d hd he
      rcases hnew d hd with h | h
      · exact h1 d h he
      · exact h (by rw [he]; rfl)
  | done id r =>
    obtain ⟨op, h3⟩ := h
    exact ⟨op, hL _ h3⟩

/-- A thread that is not under the lock does not notice what is done there. -/
theorem threadOk_outside {x : Ctx} {n : Nat} {impl : Op → Call} {ops : Op → Prop} {c c' : Conf} {L L' : List Done} {A A' : FileS} {t : Nat} {s : TState}
    (h : ThreadOk x n impl ops c L A t s) (hno : c.lock ≠ some t) (hh : c'.hist = c.hist)
    (hL : ∀ d ∈ L, d ∈ L') (hnew : ∀ d ∈ L', d ∈ L ∨ s.callId ≠ some d.id) : ThreadOk x n impl ops c' L' A' t s := by
  cases s with
  | idle => trivial
  | ready id cl =>
    obtain ⟨h1, op, h2, h3, h4⟩ := h
    refine ⟨?_, op, h2, h3, by rw [hh]; exact h4⟩
    intro d hd he
    rcases hnew d hd with h | h
    · exact h1 d h he
    · exact h (by rw [he]; rfl)
  | inside id p =>
    cases p with
    | lazy f => exact h.elim
    | ret r => exact absurd h.1 hno
    | step f k => exact absurd h.2.1 hno
  | done id r =>
    obtain ⟨op, h3⟩ := h
    exact ⟨op, hL _ h3⟩

theorem callId_setTh {f : Nat → TState} {t u : Nat} {s : TState} {id : Nat} (h : (setTh f t s u).callId = some id) :
    (u = t ∧ s.callId = some id) ∨ (u ≠ t ∧ (f u).callId = some id) := by
  unfold setTh at h
  by_cases hu : u = t
  · rw [if_pos hu] at h; exact Or.inl ⟨hu, h⟩
  · rw [if_neg hu] at h; exact Or.inr ⟨hu, h⟩

theorem setTh_same (f : Nat → TState) (t : Nat) (s : TState) : setTh f t s t = s := by unfold setTh; rw [if_pos rfl]
theorem setTh_other (f : Nat → TState) {t u : Nat} (s : TState) (h : u ≠ t) : setTh f t s u = f u := by unfold setTh; rw [if_neg h]

/-- The numbers of calls stay as they should if a thread goes on with its call. -/
theorem ids_keep {x : Ctx} {n : Nat} {w : Bool} {impl : Op → Call} {ops : Op → Prop} {F : FileS} {c : Conf} {L : List Done} {A : FileS} (h : TInv x n w impl ops F c L A)
    {t : Nat} {s : TState} (hs : s.callId = (c.th t).callId) :
    (∀ u id, (setTh c.th t s u).callId = some id → id < c.next ∧ ∀ r, Event.ret id r ∉ c.hist) ∧
    (∀ u v id, (setTh c.th t s u).callId = some id → (setTh c.th t s v).callId = some id → u = v) := by
  have key : ∀ u id, (setTh c.th t s u).callId = some id → (c.th u).callId = some id := by
    intro u id hu
    rcases callId_setTh hu with ⟨rfl, h1⟩ | ⟨_, h1⟩
    · rw [← hs]; exact h1
    · exact h1
  exact ⟨fun u id hu => h.ids u id (key u id hu), fun u v id hu hv => h.excl u v id (key u id hu) (key v id hv)⟩

theorem tinv_step {x : Ctx} {n : Nat} {w : Bool} {impl : Op → Call} {ops : Op → Prop} (hi : ∀ op, ops op → Implements x n w op (impl op)) {F : FileS} {c c' : Conf}
    {L : List Done} {A : FileS} (h : TInv x n w impl ops F c L A) (st : TStep impl ops c c') : ∃ L' A', TInv x n w impl ops F c' L' A' := by
  -- a call takes effect without the lock
  have effect : ∀ t id cl r, c.th t = .ready id cl → (∀ op, ops op → cl = impl op → fileOp x n op A = (r, A)) →
      ∃ L' A', TInv x n w impl ops F { c with th := setTh c.th t (.done id r) } L' A' := by
    intro t id cl r ht hop
    have h1 := h.th t
    rw [ht] at h1
    obtain ⟨h2, op, h3, h4, h5⟩ := h1
    have hid := h.ids t id (by rw [ht]; rfl)
    have hk := ids_keep h (t := t) (s := .done id r) (by rw [ht]; rfl)
    refine ⟨L ++ [⟨id, op, r⟩], A, lin_snoc h.lin (hop op h3 h4) h2 h5 hid.2, h.wr, h.opn, h.free, ?_, hk.1, hk.2, h.hids⟩
    intro u
    by_cases hu : u = t
    · subst hu
      show ThreadOk x n impl ops _ _ A u (setTh c.th u _ u)
      rw [setTh_same]
      exact ⟨op, by simp⟩
    · show ThreadOk x n impl ops _ _ A u (setTh c.th t _ u)
      rw [setTh_other _ _ hu]
      refine threadOk_other (h.th u) rfl rfl rfl (fun d hd => by simp [hd]) ?_
      intro d hd
      rcases List.mem_append.mp hd with hd | hd
      · exact Or.inl hd
      · right
        rw [List.mem_singleton] at hd
        subst hd
        intro hc
        exact hu (h.excl u t id hc (by rw [ht]; rfl))
  cases st with
  | invoke t op ht hop =>
    refine ⟨L, A, ⟨h.lin.results, h.lin.state, h.lin.nodup, ?_, ?_, ?_⟩, h.wr, h.opn, h.free, ?_, ?_, ?_, ?_⟩
    · intro d hd
      obtain ⟨u, hu⟩ := h.lin.calls d hd
      exact ⟨u, by simp [hu]⟩
    · intro id r hr
      refine h.lin.returned id r ?_
      simpa using hr
    · rintro i j a b ha hb ⟨i', j', ea, eb, h1, h2, h3, h4, h5⟩
      have hj : j' < c.hist.length := by
        rw [List.getElem?_append] at h3
        split at h3
        · assumption
        · exfalso
          have : eb = .call c.next t op := by
            have := List.mem_of_getElem? h3
            rwa [List.mem_singleton] at this
          subst this
          obtain ⟨u, hu⟩ := h.lin.calls b (List.mem_of_getElem? hb)
          have := h.hids _ _ _ hu
          have h5 : c.next = b.id := h5
          omega
      rw [List.getElem?_append_left hj] at h3
      rw [List.getElem?_append_left (by omega)] at h2
      exact h.lin.order i j a b ha hb ⟨i', j', ea, eb, h1, h2, h3, h4, h5⟩
    · intro u
      by_cases hu : u = t
      · subst hu
        show ThreadOk x n impl ops _ L A u (setTh c.th u _ u)
        rw [setTh_same]
        refine ⟨?_, op, hop, rfl, by simp⟩
        intro d hd he
        obtain ⟨v, hv⟩ := h.lin.calls d hd
        have := h.hids _ _ _ hv
        omega
      · show ThreadOk x n impl ops _ L A u (setTh c.th t _ u)
        rw [setTh_other _ _ hu]
        exact threadOk_hist (h.th u) rfl rfl (fun e he => by simp [he])
    · intro u id hu
      rcases callId_setTh hu with ⟨_, h1⟩ | ⟨_, h1⟩
      · cases h1
        refine ⟨Nat.lt_succ_self _, ?_⟩
        intro r hr
        have hr : Event.ret c.next r ∈ c.hist := by simpa using hr
        obtain ⟨d, hd, he, _⟩ := h.lin.returned _ _ hr
        obtain ⟨v, hv⟩ := h.lin.calls d hd
        have := h.hids _ _ _ hv
        omega
      · obtain ⟨h2, h3⟩ := h.ids u id h1
        refine ⟨Nat.lt_succ_of_lt h2, ?_⟩
        intro r hr
        exact h3 r (by simpa using hr)
    · intro u v id hu hv
      rcases callId_setTh hu with ⟨e1, h1⟩ | ⟨e1, h1⟩ <;> rcases callId_setTh hv with ⟨e2, h2⟩ | ⟨e2, h2⟩
      · rw [e1, e2]
      · cases h1
        have := (h.ids v _ h2).1
        omega
      · cases h2
        have := (h.ids u _ h1).1
        omega
      · exact h.excl u v id h1 h2
    · intro id u o he
      rcases List.mem_append.mp he with he | he
      · exact Nat.lt_succ_of_lt (h.hids _ _ _ he)
      · rw [List.mem_singleton] at he
        cases he
        exact Nat.lt_succ_self _
  | now t id r ht =>
    refine effect t id _ r ht ?_
    intro op h1 h2
    have := hi op h1
    rw [← h2] at this
    exact this A h.wr
  | look t id f ht =>
    refine effect t id _ _ ht ?_
    intro op h1 h2
    have := hi op h1
    rw [← h2] at this
    rw [this.1 A h.wr, this.2 _ _ h.opn]
  | acquire t id p ht hl =>
    have h1 := h.th t
    rw [ht] at h1
    obtain ⟨h2, op, h3, h4, h5⟩ := h1
    have hid := h.ids t id (by rw [ht]; rfl)
    have hfile := h.free hl
    have himp := hi op h3
    rw [← h4] at himp
    obtain ⟨himp, hq⟩ := himp
    have hrun := himp A h.wr
    have hk := ids_keep h (t := t) (s := .inside id p) (by rw [ht]; rfl)
    cases p with
    | lazy f => exact hq.elim
    | ret r =>
      refine ⟨L ++ [⟨id, op, r⟩], A, lin_snoc h.lin hrun.symm h2 h5 hid.2, h.wr, h.opn, fun _ => hfile, ?_, hk.1, hk.2, h.hids⟩
      intro u
      by_cases hu : u = t
      · subst hu
        show ThreadOk x n impl ops _ _ A u (setTh c.th u _ u)
        rw [setTh_same]
        exact ⟨rfl, hfile, op, by simp⟩
      · show ThreadOk x n impl ops _ _ A u (setTh c.th t _ u)
        rw [setTh_other _ _ hu]
        refine threadOk_outside (h.th u) (by rw [hl]; simp) rfl (fun d hd => by simp [hd]) ?_
        intro d hd
        rcases List.mem_append.mp hd with hd | hd
        · exact Or.inl hd
        · right
          rw [List.mem_singleton] at hd
          subst hd
          intro hc
          exact hu (h.excl u t id hc (by rw [ht]; rfl))
    | step f k =>
      refine ⟨L, A, h.lin, h.wr, h.opn, fun _ => hfile, ?_, hk.1, hk.2, h.hids⟩
      intro u
      by_cases hu : u = t
      · subst hu
        show ThreadOk x n impl ops _ _ A u (setTh c.th u _ u)
        rw [setTh_same]
        exact ⟨h2, rfl, hq, op, h3, h5, by dsimp only; rw [hfile]; exact hrun⟩
      · show ThreadOk x n impl ops _ _ A u (setTh c.th t _ u)
        rw [setTh_other _ _ hu]
        exact threadOk_outside (h.th u) (by rw [hl]; simp) rfl (fun d hd => hd) (fun d hd => Or.inl hd)
  | run t id f k ht =>
    have h1 := h.th t
    rw [ht] at h1
    obtain ⟨h2, hl, hq, op, h3, h5, hrun⟩ := h1
    have hid := h.ids t id (by rw [ht]; rfl)
    have hk := ids_keep h (t := t) (s := .inside id (k c.file)) (by rw [ht]; rfl)
    have hlock : ∀ u, u ≠ t → c.lock ≠ some u := by
      intro u hu he
      rw [hl] at he
      cases he
      exact hu rfl
    obtain ⟨q1, q2⟩ := hq c.file
    rw [runProg] at hrun
    cases hkf : k c.file with
    | lazy f' => rw [hkf] at q1; exact q1.elim
    | ret r =>
      rw [hkf] at hrun hk
      have hrun : (r, f c.file) = fileOp x n op A := hrun
      refine ⟨L ++ [⟨id, op, r⟩], f c.file, lin_snoc h.lin hrun.symm h2 h5 hid.2, ?_, rfl, fun _ => rfl, ?_, hk.1, hk.2, h.hids⟩
      · have := fileOp_writable x n op A
        rw [← hrun] at this
        exact this.trans h.wr
      · intro u
        by_cases hu : u = t
        · subst hu
          show ThreadOk x n impl ops _ _ _ u (setTh c.th u _ u)
          rw [setTh_same]
          exact ⟨hl, rfl, op, by simp⟩
        · show ThreadOk x n impl ops _ _ _ u (setTh c.th t _ u)
          rw [setTh_other _ _ hu]
          refine threadOk_outside (h.th u) (hlock u hu) rfl (fun d hd => by simp [hd]) ?_
          intro d hd
          rcases List.mem_append.mp hd with hd | hd
          · exact Or.inl hd
          · right
            rw [List.mem_singleton] at hd
            subst hd
            intro hc
            exact hu (h.excl u t id hc (by rw [ht]; rfl))
    | step f' k' =>
      rw [hkf] at hrun hk q1
      have hop : (f c.file).isOpen = c.file.isOpen := by
        rcases q2 with h | ⟨r, h⟩
        · exact h
        · rw [hkf] at h; cases h
      refine ⟨L, A, h.lin, h.wr, hop.trans h.opn, ?_, ?_, hk.1, hk.2, h.hids⟩
      · intro hn
        have hn : c.lock = none := hn
        rw [hl] at hn; cases hn
      · intro u
        by_cases hu : u = t
        · subst hu
          show ThreadOk x n impl ops _ _ _ u (setTh c.th u _ u)
          rw [setTh_same]
          exact ⟨h2, hl, q1, op, h3, h5, hrun⟩
        · show ThreadOk x n impl ops _ _ _ u (setTh c.th t _ u)
          rw [setTh_other _ _ hu]
          exact threadOk_outside (h.th u) (hlock u hu) rfl (fun d hd => hd) (fun d hd => Or.inl hd)
  | release t id r ht =>
    have h1 := h.th t
    rw [ht] at h1
    obtain ⟨hl, hf, op, h2⟩ := h1
    have hk := ids_keep h (t := t) (s := .done id r) (by rw [ht]; rfl)
    refine ⟨L, A, h.lin, h.wr, h.opn, fun _ => hf, ?_, hk.1, hk.2, h.hids⟩
    intro u
    by_cases hu : u = t
    · subst hu
      show ThreadOk x n impl ops _ _ _ u (setTh c.th u _ u)
      rw [setTh_same]
      exact ⟨op, h2⟩
    · show ThreadOk x n impl ops _ _ _ u (setTh c.th t _ u)
      rw [setTh_other _ _ hu]
      refine threadOk_outside (h.th u) ?_ rfl (fun d hd => hd) (fun d hd => Or.inl hd)
      rw [hl]
      intro he
      cases he
      exact hu rfl
  | leave t id f ht =>
    have h1 := h.th t
    rw [ht] at h1
    exact h1.elim
  | ret t id r ht =>
    have h1 := h.th t
    rw [ht] at h1
    obtain ⟨op, h2⟩ := h1
    refine ⟨L, A, ⟨h.lin.results, h.lin.state, h.lin.nodup, ?_, ?_, ?_⟩, h.wr, h.opn, h.free, ?_, ?_, ?_, ?_⟩
    · intro d hd
      obtain ⟨u, hu⟩ := h.lin.calls d hd
      exact ⟨u, by simp [hu]⟩
    · intro i r' hr
      rcases List.mem_append.mp hr with hr | hr
      · exact h.lin.returned i r' hr
      · rw [List.mem_singleton] at hr
        cases hr
        exact ⟨_, h2, rfl, rfl⟩
    · rintro i j a b ha hb ⟨i', j', ea, eb, h1, h2, h3, h4, h5⟩
      have hj : j' < c.hist.length := by
        rw [List.getElem?_append] at h3
        split at h3
        · assumption
        · exfalso
          have : eb = .ret id r := by
            have := List.mem_of_getElem? h3
            rwa [List.mem_singleton] at this
          subst this
          exact h5
      rw [List.getElem?_append_left hj] at h3
      rw [List.getElem?_append_left (by omega)] at h2
      exact h.lin.order i j a b ha hb ⟨i', j', ea, eb, h1, h2, h3, h4, h5⟩
    · intro u
      by_cases hu : u = t
      · subst hu
        show ThreadOk x n impl ops _ _ _ u (setTh c.th u _ u)
        rw [setTh_same]
        trivial
      · show ThreadOk x n impl ops _ _ _ u (setTh c.th t _ u)
        rw [setTh_other _ _ hu]
        exact threadOk_hist (h.th u) rfl rfl (fun e he => by simp [he])
    · intro u i hu
      rcases callId_setTh hu with ⟨_, h1⟩ | ⟨hne, h1⟩
      · cases h1
      · obtain ⟨h2, h3⟩ := h.ids u i h1
        refine ⟨h2, ?_⟩
        intro r' hr
        rcases List.mem_append.mp hr with hr | hr
        · exact h3 r' hr
        · rw [List.mem_singleton] at hr
          cases hr
          exact hne (h.excl u t id h1 (by rw [ht]; rfl))
    · intro u v i hu hv
      rcases callId_setTh hu with ⟨_, h1⟩ | ⟨_, h1⟩
      · cases h1
      · rcases callId_setTh hv with ⟨_, h2⟩ | ⟨_, h2⟩
        · cases h2
        · exact h.excl u v i h1 h2
    · intro i u o he
      exact h.hids i u o (by simpa using he)

theorem tinv_init (x : Ctx) (n : Nat) (impl : Op → Call) (ops : Op → Prop) (F : FileS) : TInv x n F.writable impl ops F (Conf.init F) [] F where
  lin := ⟨rfl, rfl, by simp, by simp, by simp [Conf.init], by simp⟩
  wr := rfl
  opn := rfl
  free := fun _ => rfl
  th := fun _ => trivial
  ids := by intro t id h; cases h
  excl := by intro t u id h; cases h
  hids := by intro id t op h; cases h

/-- Methods that take the lock before touching the state, in whatever steps, are linearizable. -/
theorem linearizable_of {x : Ctx} {n : Nat} {impl : Op → Call} {ops : Op → Prop} {F : FileS} (hi : ∀ op, ops op → Implements x n F.writable op (impl op)) {c : Conf}
    (hr : TRun impl ops (Conf.init F) c) : ∃ L A, Linearization x n F c.hist L A ∧ (c.lock = none → c.file = A) := by
  suffices h : ∃ L A, TInv x n F.writable impl ops F c L A by
    obtain ⟨L, A, h⟩ := h
    exact ⟨L, A, h.lin, h.free⟩
  induction hr with
  | refl => exact ⟨_, _, tinv_init x n impl ops F⟩
  | step _ st ih =>
    obtain ⟨L, A, h⟩ := ih
    exact tinv_step hi h st

theorem res_map_error {α β : Type} (f : α → β) (e : Exc) : Except.map f (.error e : Res α) = .error e := rfl

/-- `ifOpen` as part of the invariant. -/
theorem quiet_ifOpen {p : Prog} (h : Quiet p) : Quiet (ifOpen p) := by
  intro F
  refine ⟨?_, Or.inl rfl⟩
  dsimp only
  split
  · exact h
  · trivial

theorem run_ifOpen (p : Prog) (F : FileS) : runProg (ifOpen p) F = if F.isOpen then runProg p F else (.error .osError, F) := by
  show runProg (if F.isOpen then p else .ret (.error .osError)) F = _
  split
  · rfl
  · rfl

theorem quiet_look (g : FileS → Res Out) : Quiet (.step id fun F => .ret (g F)) := fun _ => ⟨trivial, Or.inl rfl⟩

theorem quiet_writeProg (x : Ctx) (n : Nat) (l : List ((Str × Str) × Val)) : Quiet (writeProg x n l) := by
  induction l with
  | nil => trivial
  | cons a l ih =>
    obtain ⟨gt, v⟩ := a
    intro F
    refine ⟨?_, Or.inl (runFile_writable _ _).2.1⟩
    dsimp only
    cases (runFile F (writeOne x n gt v)).1 with
    | ok _ => exact ih
    | error e => trivial

theorem run_writeProg (x : Ctx) (n : Nat) (l : List ((Str × Str) × Val)) (F : FileS) (hro : F.ro = false) :
    runProg (writeProg x n l) F = (outOf (fun _ => .unit) (runFile F (writeMany x n l)).1, (runFile F (writeMany x n l)).2) := by
  induction l generalizing F with
  | nil => rw [runFile_rw _ hro]; rfl
  | cons a l ih =>
    obtain ⟨gt, v⟩ := a
    rw [writeProg, runProg, writeMany]
    have hF := runFile_rw (writeOne x n gt v) hro
    rw [hF]
    rw [runFile_rw _ hro]
    dsimp only
    cases hw : writeOne x n gt v F.st with
    | mk r s =>
      cases r with
      | error e => rw [run_bind_err hw]; rfl
      | ok q =>
        rw [run_bind_ok hw]
        dsimp only
        rw [ih { F with st := s } hro, runFile_rw (F := { F with st := s }) _ hro]

theorem quiet_readProg (x : Ctx) (n : Nat) (fin : List Val → Res Out) (l : List (Str × Str)) (acc : List Val) : Quiet (readProg x n fin l acc) := by
  induction l generalizing acc with
  | nil => trivial
  | cons a l ih =>
    intro F
    refine ⟨?_, Or.inl rfl⟩
    dsimp only
    cases readOne x n F.st.heap a with
    | ok v => exact ih _
    | error e => trivial

theorem run_readProg (x : Ctx) (n : Nat) (fin : List Val → Res Out) (l : List (Str × Str)) (acc : List Val) (F : FileS) :
    runProg (readProg x n fin l acc) F = (readMany x n F.st.heap l >>= fun r => fin (acc ++ r), F) := by
  induction l generalizing acc with
  | nil =>
    show (fin acc, F) = (fin (acc ++ []), F)
    rw [List.append_nil]
  | cons a l ih =>
    rw [readProg, runProg, readMany]
    cases hr : readOne x n F.st.heap a with
    | error e => rfl
    | ok v =>
      dsimp only [id]
      rw [ih]
      cases readMany x n F.st.heap l with
      | error e => rfl
      | ok r =>
        show (fin (acc ++ [v] ++ r), F) = (fin (acc ++ (v :: r)), F)
        rw [List.append_assoc]; rfl

theorem writesCall_ok (x : Ctx) (n : Nat) (w : Bool) (m : List (PathArg × Val)) (op : Op)
    (hop : ∀ F, fileOp x n op F = (outOf (fun _ => .unit) (fileWrites x n m F).1, (fileWrites x n m F).2)) : Implements x n w op (writesCall x n w m) := by
  unfold writesCall
  by_cases hw : w = true
  case neg =>
    have hw : w = false := by simpa using hw
    subst hw
    intro F hF
    rw [hop]
    unfold fileWrites
    rw [hF]; rfl
  subst hw
  rw [if_neg (by decide)]
  cases hc : checkItems x.o.refsPath m with
  | error e =>
    intro F hF
    rw [hop]
    unfold fileWrites
    rw [hF, if_neg (by decide), hc]; rfl
  | ok tw =>
    refine ⟨?_, quiet_ifOpen ?_⟩
    · intro F hF
      rw [run_ifOpen, hop]
      unfold fileWrites
      rw [hF, if_neg (show ¬((!true) = true) by decide), hc]
      dsimp only
      cases ho : F.isOpen with
      | false => rfl
      | true =>
        rw [if_pos rfl, if_neg (show ¬((!true) = true) by decide), runProg]
        dsimp only [id]
        cases hro : F.ro with
        | true => rfl
        | false =>
          rw [if_neg (by decide)]
          exact run_writeProg x n tw F hro
    · intro F
      refine ⟨?_, Or.inl rfl⟩
      dsimp only
      split
      · exact fun F => ⟨trivial, Or.inr ⟨_, rfl⟩⟩
      · exact quiet_writeProg x n tw

theorem readsCall_ok (x : Ctx) (n : Nat) (w : Bool) (ps : List PathArg) (fin : List Val → Res Out) (op : Op)
    (hop : ∀ F, fileOp x n op F = (fileReads x n ps F >>= fin, F)) : Implements x n w op (readsCall x n fin ps) := by
  unfold readsCall
  cases hc : checkPaths x.o.refsPath ps with
  | error e =>
    intro F _
    rw [hop]
    unfold fileReads
    rw [hc]; rfl
  | ok tr =>
    refine ⟨?_, quiet_ifOpen (quiet_readProg _ _ _ _ _)⟩
    intro F _
    rw [run_ifOpen, hop]
    unfold fileReads
    rw [hc]
    dsimp only
    cases ho : F.isOpen with
    | false => rfl
    | true =>
      rw [if_pos rfl, if_neg (by decide), run_readProg]
      rfl

/-- The methods are executed correctly if not interrupted. -/
theorem callOf_ok (x : Ctx) (n : Nat) (w : Bool) (op : Op) (hop : op ≠ .iter) : Implements x n w op (callOf x n w op) := by
  cases op with
  | writes m => exact writesCall_ok x n w m _ fun _ => rfl
  | write p v => exact writesCall_ok x n w [(p, v)] _ fun _ => rfl
  | reads ps =>
    refine readsCall_ok x n w ps _ _ ?_
    intro F
    show (outOf .vals (fileReads x n ps F), F) = _
    cases fileReads x n ps F <;> rfl
  | read p =>
    refine readsCall_ok x n w [p] _ _ ?_
    intro F
    show (outOf .val (fileRead x n p F), F) = _
    unfold fileRead
    cases fileReads x n [p] F <;> rfl
  | len =>
    refine ⟨?_, quiet_ifOpen (quiet_look _)⟩
    intro F _
    rw [run_ifOpen]
    show _ = (outOf .num (fileLen x F), F)
    cases ho : F.isOpen with
    | false => unfold fileLen; rw [ho]; rfl
    | true => rfl
  | iter => exact absurd rfl hop
  | contains p =>
    unfold callOf
    dsimp only
    have hop : ∀ F, fileOp x n (.contains p) F = (outOf .bool (fileContains p F), F) := fun _ => rfl
    cases hp : processPath p with
    | error e =>
      cases e with
      | typeError => intro F _; rw [hop, fileContains, hp]; rfl
      | _ => intro F _; rw [hop, fileContains, hp]; rfl
    | ok gt =>
      refine ⟨?_, quiet_ifOpen (quiet_look _)⟩
      intro F _
      rw [run_ifOpen, hop, fileContains, hp]
      dsimp only
      cases ho : F.isOpen with
      | false => rfl
      | true => rfl
  | del p =>
    unfold callOf
    have hop : ∀ F, fileOp x n (.del p) F = (outOf (fun _ => .unit) (fileDel p F).1, (fileDel p F).2) := fun _ => rfl
    by_cases hw : w = true
    case neg =>
      have hw : w = false := by simpa using hw
      subst hw
      intro F hF
      rw [hop, fileDel, hF]; rfl
    subst hw
    dsimp only
    rw [if_neg (by decide)]
    cases hp : processPath p with
    | error e => intro F hF; rw [hop, fileDel, hF, if_neg (by decide), hp]; rfl
    | ok gt =>
      dsimp only
      cases hj : pJoin [gt.1, gt.2] with
      | error e =>
        refine ⟨?_, quiet_ifOpen trivial⟩
        intro F hF
        rw [run_ifOpen, hop, fileDel, hF, if_neg (show ¬((!true) = true) by decide), hp]
        dsimp only
        rw [hj]
        cases ho : F.isOpen <;> rfl
      | ok j =>
        refine ⟨?_, quiet_ifOpen fun F => ⟨trivial, Or.inr ⟨_, rfl⟩⟩⟩
        intro F hF
        rw [run_ifOpen, hop, fileDel, hF, if_neg (show ¬((!true) = true) by decide), hp]
        dsimp only
        rw [hj]
        cases ho : F.isOpen <;> rfl
  | close => exact ⟨fun F _ => rfl, fun F => ⟨trivial, Or.inr ⟨_, rfl⟩⟩⟩
  | flush =>
    refine ⟨?_, quiet_ifOpen trivial⟩
    intro F _
    rw [run_ifOpen]
    show _ = (outOf (fun _ => .unit) (fileFlush F).1, (fileFlush F).2)
    unfold fileFlush
    cases ho : F.isOpen <;> rfl
  | closed =>
    refine ⟨fun F _ => rfl, ?_⟩
    intro F G h
    show (Except.ok (.bool (fileClosed F)) : Res Out) = .ok (.bool (fileClosed G))
    unfold fileClosed
    rw [h]

/-- What is known about the calls of a thread: they have returned, except the one it is executing. -/
def SeqOk (c : Conf) : Prop :=
  (∀ t id, (c.th t).callId = some id → ∃ op, Event.call id t op ∈ c.hist) ∧
  (∀ id t op, Event.call id t op ∈ c.hist → (c.th t).callId = some id ∨ ∃ r, Event.ret id r ∈ c.hist) ∧
  ∀ (i j : Nat) (t a b : Nat) (p q : Op), i < j → c.hist[i]? = some (.call a t p) → c.hist[j]? = some (.call b t q) →
    ∃ (k : Nat) (r : Res Out), i < k ∧ k < j ∧ c.hist[k]? = some (.ret a r)

/-- A return comes after the call. -/
def RetOk (c : Conf) : Prop := ∀ (i j : Nat) (t a : Nat) (p : Op) (r : Res Out), c.hist[i]? = some (.call a t p) → c.hist[j]? = some (.ret a r) → i < j

/-- Numbers of calls are used once. -/
def NumOk (c : Conf) : Prop :=
  (∀ id t op, Event.call id t op ∈ c.hist → id < c.next) ∧ (∀ id r, Event.ret id r ∈ c.hist → id < c.next) ∧ ∀ t id, (c.th t).callId = some id → id < c.next

theorem getElem?_snoc_cases {α : Type} {l : List α} {a e : α} {i : Nat} (h : (l ++ [a])[i]? = some e) : (i < l.length ∧ l[i]? = some e) ∨ (i = l.length ∧ e = a) := by
  by_cases hi : i < l.length
  · rw [List.getElem?_append_left hi] at h; exact Or.inl ⟨hi, h⟩
  · right
    rw [List.getElem?_append_right (by omega)] at h
    have : i - l.length = 0 := by
      rcases Nat.eq_zero_or_pos (i - l.length) with h0 | h0
      · exact h0
      · rw [List.getElem?_eq_none (by simp; omega)] at h; cases h
    rw [this] at h
    cases h
    exact ⟨by omega, rfl⟩

theorem seq_step {impl : Op → Call} {ops : Op → Prop} {c d : Conf} (h : SeqOk c ∧ RetOk c ∧ NumOk c) (st : TStep impl ops c d) : SeqOk d ∧ RetOk d ∧ NumOk d := by
  obtain ⟨⟨h1, h2, h3⟩, h4, h5, h6, h7⟩ := h
  -- going on with a call
  have keep : ∀ (t : Nat) (s : TState), s.callId = (c.th t).callId → ∀ (d : Conf), d.th = setTh c.th t s → d.next = c.next → d.hist = c.hist →
      SeqOk d ∧ RetOk d ∧ NumOk d := by
    intro t s hs d e1 e2 e3
    have key : ∀ u, (d.th u).callId = (c.th u).callId := by
      intro u
      rw [e1]
      by_cases hu : u = t
      · subst hu; rw [setTh_same]; exact hs
      · rw [setTh_other _ _ hu]
    refine ⟨⟨?_, ?_, ?_⟩, ?_, ?_, ?_, ?_⟩
    · intro u id; rw [key, e3]; exact h1 u id
    · intro id u op; rw [key, e3]; exact h2 id u op
    · rw [e3]; exact h3
    · unfold RetOk; rw [e3]; exact h4
    · rw [e2, e3]; exact h5
    · rw [e2, e3]; exact h6
    · intro u id; rw [key, e2]; exact h7 u id
  cases st with
  | invoke t op ht hop =>
    have hnone : (c.th t).callId = none := by rw [ht]; rfl
    refine ⟨⟨?_, ?_, ?_⟩, ?_, ?_, ?_, ?_⟩
    · intro u id hu
      rcases callId_setTh hu with ⟨e, h⟩ | ⟨_, h⟩
      · cases h; exact ⟨op, by simp [e]⟩
      · obtain ⟨o, ho⟩ := h1 u id h
        exact ⟨o, by simp [ho]⟩
    · intro id u o he
      rcases List.mem_append.mp he with he | he
      · rcases h2 id u o he with h | ⟨r, h⟩
        · left
          show (setTh c.th t _ u).callId = _
          by_cases hu : u = t
          · subst hu; rw [hnone] at h; cases h
          · rw [setTh_other _ _ hu]; exact h
        · exact Or.inr ⟨r, by simp [h]⟩
      · rw [List.mem_singleton] at he
        cases he
        left
        show (setTh c.th t _ t).callId = _
        rw [setTh_same]; rfl
    · intro i j u a b p q hij hi hj
      rcases getElem?_snoc_cases hj with ⟨hjl, hj⟩ | ⟨hjl, hj⟩
      · rcases getElem?_snoc_cases hi with ⟨hil, hi⟩ | ⟨hil, hi⟩
        · obtain ⟨k, r, k1, k2, k3⟩ := h3 i j u a b p q hij hi hj
          refine ⟨k, r, k1, k2, ?_⟩
          show (c.hist ++ _)[k]? = _
          rw [List.getElem?_append_left (by omega)]; exact k3
        · omega
      · cases hj
        rcases getElem?_snoc_cases hi with ⟨hil, hi⟩ | ⟨hil, hi⟩
        · rcases h2 a t p (List.mem_of_getElem? hi) with h | ⟨r, h⟩
          · rw [hnone] at h; cases h
          · obtain ⟨k, k3⟩ := List.getElem?_of_mem h
            have hk : k < c.hist.length := by
              rcases Nat.lt_or_ge k c.hist.length with h | h
              · exact h
              · rw [List.getElem?_eq_none h] at k3; cases k3
            refine ⟨k, r, h4 i k t a p r hi k3, by omega, ?_⟩
            show (c.hist ++ _)[k]? = _
            rw [List.getElem?_append_left hk]; exact k3
        · omega
    · intro i j u a p r hi hj
      rcases getElem?_snoc_cases hj with ⟨hjl, hj⟩ | ⟨hjl, hj⟩
      · rcases getElem?_snoc_cases hi with ⟨hil, hi⟩ | ⟨hil, hi⟩
        · exact h4 i j u a p r hi hj
        · cases hi
          have := h6 _ _ (List.mem_of_getElem? hj)
          omega
      · cases hj
    · intro id u o he
      rcases List.mem_append.mp he with he | he
      · exact Nat.lt_succ_of_lt (h5 _ _ _ he)
      · rw [List.mem_singleton] at he; cases he; exact Nat.lt_succ_self _
    · intro id r he
      exact Nat.lt_succ_of_lt (h6 id r (by simpa using he))
    · intro u id hu
      rcases callId_setTh hu with ⟨e, h⟩ | ⟨_, h⟩
      · cases h; exact Nat.lt_succ_self _
      · exact Nat.lt_succ_of_lt (h7 u id h)
  | now t id r ht => exact keep t _ (by rw [ht]; rfl) _ rfl rfl rfl
  | look t id f ht => exact keep t _ (by rw [ht]; rfl) _ rfl rfl rfl
  | acquire t id p ht hl => exact keep t _ (by rw [ht]; rfl) _ rfl rfl rfl
  | run t id f k ht => exact keep t _ (by rw [ht]; rfl) _ rfl rfl rfl
  | release t id r ht => exact keep t _ (by rw [ht]; rfl) _ rfl rfl rfl
  | leave t id f ht => exact keep t _ (by rw [ht]; rfl) _ rfl rfl rfl
  | ret t id r ht =>
    have hid : (c.th t).callId = some id := by rw [ht]; rfl
    refine ⟨⟨?_, ?_, ?_⟩, ?_, ?_, ?_, ?_⟩
    · intro u i hu
      rcases callId_setTh hu with ⟨e, h⟩ | ⟨_, h⟩
      · cases h
      · obtain ⟨o, ho⟩ := h1 u i h
        exact ⟨o, by simp [ho]⟩
    · intro i u o he
      have he : Event.call i u o ∈ c.hist := by simpa using he
      rcases h2 i u o he with h | ⟨r', h⟩
      · by_cases hu : u = t
        · subst hu
          rw [hid] at h
          cases h
          exact Or.inr ⟨r, by simp⟩
        · left
          show (setTh c.th t _ u).callId = _
          rw [setTh_other _ _ hu]; exact h
      · exact Or.inr ⟨r', by simp [h]⟩
    · intro i j u a b p q hij hi hj
      rcases getElem?_snoc_cases hj with ⟨hjl, hj⟩ | ⟨hjl, hj⟩
      · rcases getElem?_snoc_cases hi with ⟨hil, hi⟩ | ⟨hil, hi⟩
        · obtain ⟨k, r, k1, k2, k3⟩ := h3 i j u a b p q hij hi hj
          refine ⟨k, r, k1, k2, ?_⟩
          show (c.hist ++ _)[k]? = _
          rw [List.getElem?_append_left (by omega)]; exact k3
        · omega
      · cases hj
    · intro i j u a p r' hi hj
      rcases getElem?_snoc_cases hi with ⟨hil, hi⟩ | ⟨hil, hi⟩
      · rcases getElem?_snoc_cases hj with ⟨hjl, hj⟩ | ⟨hjl, hj⟩
        · exact h4 i j u a p r' hi hj
        · omega
      · cases hi
    · intro i u o he
      exact h5 i u o (by simpa using he)
    · intro i r' he
      rcases List.mem_append.mp he with he | he
      · exact h6 _ _ he
      · rw [List.mem_singleton] at he; cases he; exact h7 t _ hid
    · intro u i hu
      rcases callId_setTh hu with ⟨e, h⟩ | ⟨_, h⟩
      · cases h
      · exact h7 u i h

theorem Spec.TGo.trans {impl : Op → Call} {a b c : Conf} (h : TGo impl a b) (h' : TGo impl b c) : TGo impl a c := by
  induction h' with
  | refl => exact h
  | step _ st ih => exact .step ih st

theorem Spec.TGo.one {impl : Op → Call} {a b : Conf} (h : TStep impl (fun _ => False) a b) : TGo impl a b := .step (.refl _) h

/-- The thread holding the lock is executing something under it. -/
def LockOk (c : Conf) : Prop := ∀ u, c.lock = some u → ∃ id p, c.th u = .inside id p

/-- Threads under the lock hold it. -/
def InOk (c : Conf) : Prop := ∀ u id p, c.th u = .inside id p → c.lock = some u

theorem lock_step {impl : Op → Call} {ops : Op → Prop} {c d : Conf} (h : LockOk c ∧ InOk c) (st : TStep impl ops c d) : LockOk d ∧ InOk d := by
  obtain ⟨h1, h2⟩ := h
  -- a thread outside the lock goes on outside it
  have keep : ∀ (t : Nat) (s : TState) (d : Conf), (∀ id p, c.th t ≠ .inside id p) → (∀ id p, s ≠ .inside id p) → d.th = setTh c.th t s → d.lock = c.lock →
      LockOk d ∧ InOk d := by
    intro t s d ht hs e1 e2
    refine ⟨?_, ?_⟩
    · intro u hu
      rw [e2] at hu
      obtain ⟨id, p, h⟩ := h1 u hu
      have hut : u ≠ t := by rintro rfl; exact ht _ _ h
      exact ⟨id, p, by rw [e1, setTh_other _ _ hut]; exact h⟩
    · intro u id p hu
      rw [e2]
      rw [e1] at hu
      by_cases hut : u = t
      · subst hut; rw [setTh_same] at hu; exact absurd hu (hs _ _)
      · rw [setTh_other _ _ hut] at hu; exact h2 u id p hu
  cases st with
  | invoke t op ht hop => exact keep t _ _ (by intro id p h; rw [ht] at h; cases h) (by intro id p h; cases h) rfl rfl
  | now t id r ht => exact keep t _ _ (by intro id p h; rw [ht] at h; cases h) (by intro id p h; cases h) rfl rfl
  | look t id f ht => exact keep t _ _ (by intro id p h; rw [ht] at h; cases h) (by intro id p h; cases h) rfl rfl
  | ret t id r ht => exact keep t _ _ (by intro id p h; rw [ht] at h; cases h) (by intro id p h; cases h) rfl rfl
  | acquire t id p ht hl =>
    refine ⟨?_, ?_⟩
    · intro u hu
      cases hu
      exact ⟨id, p, setTh_same _ _ _⟩
    · intro u i q hu
      have hu : setTh c.th t _ u = _ := hu
      by_cases hut : u = t
      · rw [hut]
      · rw [setTh_other _ _ hut] at hu
        have := h2 u i q hu
        rw [hl] at this; cases this
  | run t id f k ht =>
    have hl := h2 t _ _ ht
    refine ⟨?_, ?_⟩
    · intro u hu
      have hu : c.lock = some u := hu
      rw [hl] at hu
      cases hu
      exact ⟨id, _, setTh_same _ _ _⟩
    · intro u i q hu
      have hu : setTh c.th t _ u = _ := hu
      by_cases hut : u = t
      · rw [hut]; exact hl
      · rw [setTh_other _ _ hut] at hu
        exact h2 u i q hu
  | release t id r ht =>
    have hl := h2 t _ _ ht
    refine ⟨(fun u hu => nomatch hu), ?_⟩
    intro u i q hu
    have hu : setTh c.th t _ u = _ := hu
    by_cases hut : u = t
    · subst hut; rw [setTh_same] at hu; cases hu
    · rw [setTh_other _ _ hut] at hu
      have := h2 u i q hu
      rw [hl] at this
      cases this
      exact absurd rfl hut
  | leave t id f ht =>
    have hl := h2 t _ _ ht
    refine ⟨(fun u hu => nomatch hu), ?_⟩
    intro u i q hu
    have hu : setTh c.th t _ u = _ := hu
    by_cases hut : u = t
    · subst hut; rw [setTh_same] at hu; cases hu
    · rw [setTh_other _ _ hut] at hu
      have := h2 u i q hu
      rw [hl] at this
      cases this
      exact absurd rfl hut

theorem go_lock {impl : Op → Call} {c d : Conf} (h : LockOk c ∧ InOk c) (hg : TGo impl c d) : LockOk d ∧ InOk d := by
  induction hg with
  | refl => exact h
  | step _ st ih => exact lock_step ih st

/-- The thread holding the lock can finish what it does under it; other threads do nothing meanwhile. -/
theorem holder_finishes (impl : Op → Call) (p : Prog) (c : Conf) (u id : Nat) (hu : c.th u = .inside id p) :
    ∃ d, TGo impl c d ∧ d.lock = none ∧ ((∃ r, d.th u = .done id r) ∨ ∃ f, d.th u = .ready id (.look f)) ∧ ∀ t, t ≠ u → d.th t = c.th t := by
  induction p generalizing c with
  | ret r =>
    refine ⟨_, .one (.release c u id r hu), rfl, Or.inl ⟨r, setTh_same _ _ _⟩, ?_⟩
    intro t ht
    exact setTh_other _ _ ht
  | lazy f =>
    refine ⟨_, .one (.leave c u id f hu), rfl, Or.inr ⟨f, setTh_same _ _ _⟩, ?_⟩
    intro t ht
    exact setTh_other _ _ ht
  | step f k ih =>
    obtain ⟨d, g1, g2, g3, g4⟩ := ih c.file { c with file := f c.file, th := setTh c.th u (.inside id (k c.file)) } (setTh_same _ _ _)
    refine ⟨d, TGo.trans (.one (.run c u id f k hu)) g1, g2, g3, ?_⟩
    intro t ht
    rw [g4 t ht]
    exact setTh_other _ _ ht

end HS
