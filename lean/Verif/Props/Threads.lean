import Verif.Lemmas.ThreadsRead
import Verif.Props.RoundTrip
/-
Several threads calling methods of one `File`.
-/
namespace HS
open Spec

/-- C41: whatever the threads do and however their steps are interleaved, the results and the state of the file are those of the calls executed one after the other, in
an order in which a call that returned before another was made comes first.  Missing: `__iter__`, which returns an iterator that is evaluated without the lock. -/
theorem C41_linearizable_partial (x : Ctx) (n : Nat) (F : FileS) (c : Conf) (hr : TRun (callOf x n F.writable) (· ≠ .iter) (Conf.init F) c) :
    ∃ L F', Linearization x n F c.hist L F' ∧ (c.lock = none → c.file = F') :=
  linearizable_of (fun op h => callOf_ok x n F.writable op h) hr

/-- The methods called by the threads in the example. -/
def exOp (t : Nat) : Op := if t = 0 then .writes [(.str p!"/a", .bool true), (.str p!"/b", .none)] else if t = 1 then .close else .closed

theorem write_to {impl : Op → Call} {ops : Op → Prop} {c : Conf} (t id : Nat) {x : Ctx} {n : Nat} {gt : Str × Str} {v : Val} {r : List ((Str × Str) × Val)}
    (h : c.th t = .inside id (writeProg x n ((gt, v) :: r))) (hk : (runFile c.file (writeOne x n gt v)).1.isOk = true) :
    TStep impl ops c { c with file := (runFile c.file (writeOne x n gt v)).2, th := setTh c.th t (.inside id (writeProg x n r)) } := by
  have st := TStep.run (impl := impl) (ops := ops) c t id _ _ h
  cases hr : (runFile c.file (writeOne x n gt v)).1 with
  | ok q => rw [hr] at st; exact st
  | error e => rw [hr] at hk; cases hk

/-- Thread 0 writes two items; while it is between them, thread 1 waits for the lock to close the file and thread 2 looks whether it is closed, which
it does again in the end. -/
theorem ex_threads : ∃ c, TRun (callOf exX 10 exF.writable) (· ≠ .iter) (Conf.init exF) c ∧
    c.hist = [.call 0 0 (exOp 0), .call 1 1 (exOp 1), .call 2 2 (exOp 2), .ret 2 (.ok (.bool false)), .ret 0 (.ok .unit), .ret 1 (.ok .unit),
      .call 3 2 (exOp 2)] ∧ c.lock = none ∧ c.th 2 ≠ .idle := by
  have r0 := TRun.refl (impl := callOf exX 10 exF.writable) (ops := (· ≠ .iter)) (Conf.init exF)
  have r1 := r0.step (.invoke _ 0 (exOp 0) rfl (fun h => nomatch h))
  have r2 := r1.step (.invoke _ 1 (exOp 1) rfl (fun h => nomatch h))
  have r3 := r2.step (.acquire _ 0 0 _ rfl rfl)
  have r4 := r3.step (.run _ 0 0 _ _ rfl)
  have r5 := r4.step (.run _ 0 0 _ _ rfl)
  have r6 := r5.step (write_to 0 0 (x := exX) (n := 10) (gt := (p!"/", p!"a")) (v := .bool true) (r := [((p!"/", p!"b"), .none)]) rfl (by decide +kernel))
  have r7 := r6.step (.invoke _ 2 (exOp 2) rfl (fun h => nomatch h))
  have r8 := r7.step (.look _ 2 2 _ rfl)
  have r9 := r8.step (.ret _ 2 2 _ rfl)
  have r10 := r9.step (write_to 0 0 (x := exX) (n := 10) (gt := (p!"/", p!"b")) (v := .none) (r := []) rfl (by decide +kernel))
  have r11 := r10.step (.release _ 0 0 _ rfl)
  have r12 := r11.step (.acquire _ 1 1 _ rfl rfl)
  have r13 := r12.step (.run _ 1 1 _ _ rfl)
  have r14 := r13.step (.release _ 1 1 _ rfl)
  have r15 := r14.step (.ret _ 0 0 _ rfl)
  have r16 := r15.step (.ret _ 1 1 _ rfl)
  have r17 := r16.step (.invoke _ 2 (exOp 2) rfl (fun h => nomatch h))
  exact ⟨_, r17, rfl, rfl, fun h => nomatch h⟩

/-- The names returned, if names are. -/
def namesOf : Res Out → Option (List Str)
  | .ok (.names l) => some l
  | _ => none

/-- Thread 1 has gotten its iterator before thread 0 begins to write two items, and consumes it when one has been written. -/
theorem ex_iterating : ∃ c r, TRun (callOf exX 10 exF.writable) (fun _ => True) (Conf.init exF) c ∧
    c.hist = [.call 0 0 (exOp 0), .call 1 1 .iter, .ret 1 r, .ret 0 (.ok .unit)] ∧ namesOf r = some [p!"a"] ∧ c.lock = none ∧ c.th 0 = .idle ∧ c.th 1 = .idle := by
  have r0 := TRun.refl (impl := callOf exX 10 exF.writable) (ops := fun _ => True) (Conf.init exF)
  have r1 := r0.step (.invoke _ 0 (exOp 0) rfl trivial)
  have r2 := r1.step (.invoke _ 1 .iter rfl trivial)
  have r3 := r2.step (.acquire _ 1 1 _ rfl rfl)
  have r4 := r3.step (.run _ 1 1 _ _ rfl)
  have r5 := r4.step (.leave _ 1 1 _ rfl)
  have r6 := r5.step (.acquire _ 0 0 _ rfl rfl)
  have r7 := r6.step (.run _ 0 0 _ _ rfl)
  have r8 := r7.step (.run _ 0 0 _ _ rfl)
  have r9 := r8.step (write_to 0 0 (x := exX) (n := 10) (gt := (p!"/", p!"a")) (v := .bool true) (r := [((p!"/", p!"b"), .none)]) rfl (by decide +kernel))
  have r10 := r9.step (.look _ 1 1 _ rfl)
  have r11 := r10.step (.ret _ 1 1 _ rfl)
  have r12 := r11.step (write_to 0 0 (x := exX) (n := 10) (gt := (p!"/", p!"b")) (v := .none) (r := []) rfl (by decide +kernel))
  have r13 := r12.step (.release _ 0 0 _ rfl)
  have r14 := r13.step (.ret _ 0 0 _ rfl)
  exact ⟨_, _, r14, rfl, by decide +kernel, rfl, rfl, rfl⟩

/-- C41 is false of `list(f)` (F35): it gives the names in the middle of a call of `writes`, which no order of the two calls does. -/
theorem C41_counterexample : ∃ c, TRun (callOf exX 10 exF.writable) (fun _ => True) (Conf.init exF) c ∧ ¬ ∃ L F', Linearization exX 10 exF c.hist L F' := by
  obtain ⟨c, r, h1, h2, h3, _⟩ := ex_iterating
  refine ⟨c, h1, ?_⟩
  rintro ⟨L, F', hl⟩
  rw [h2] at hl
  obtain ⟨d0, m0, i0, _⟩ := hl.returned 0 (.ok .unit) (by simp)
  obtain ⟨d1, m1, i1, e1⟩ := hl.returned 1 r (by simp)
  have hop : ∀ d ∈ L, (d.id = 0 ∧ d.op = exOp 0) ∨ (d.id = 1 ∧ d.op = .iter) := by
    intro d hd
    obtain ⟨t, ht⟩ := hl.calls d hd
    simp only [List.mem_cons, Event.call.injEq, List.not_mem_nil, or_false, reduceCtorEq] at ht
    rcases ht with ⟨a, _, b⟩ | ⟨a, _, b⟩
    · exact Or.inl ⟨a, b⟩
    · exact Or.inr ⟨a, b⟩
  have hid : ∀ d ∈ L, d.id = 0 ∨ d.id = 1 := fun d hd => (hop d hd).imp (·.1) (·.1)
  have o0 : d0.op = exOp 0 := (hop d0 m0).elim (·.2) fun h => absurd h.1 (by omega)
  have o1 : d1.op = .iter := (hop d1 m1).elim (fun h => absurd h.1 (by omega)) (·.2)
  have hn := hl.nodup
  have hr := hl.results
  have same : ∀ {a b : Done}, a ∈ L → b ∈ L → a.id = b.id → a = b := fun ha hb he => by
    obtain ⟨i, hi⟩ := List.getElem?_of_mem ha
    obtain ⟨j, hj⟩ := List.getElem?_of_mem hb
    have hij : i = j := by
      refine (List.getElem?_inj (l := L.map (·.id)) ?_ hn).mp ?_
      · rw [List.length_map]; exact (List.getElem?_eq_some_iff.mp hi).1
      · rw [List.getElem?_map, List.getElem?_map, hi, hj]; simp [he]
    subst hij
    rw [hi] at hj
    exact Option.some.inj hj
  have hperm : L.Perm [d0, d1] := by
    refine (List.perm_ext_iff_of_nodup (List.Pairwise.of_map _ (fun _ _ hne he => hne (by rw [he])) hn) ?_).mpr fun d => ⟨fun hd => ?_, fun hd => ?_⟩
    · simp only [List.nodup_cons, List.mem_singleton, List.not_mem_nil, not_false_eq_true, List.nodup_nil, and_true]
      intro h; rw [h] at i0; omega
    · rcases hid d hd with h | h
      · rw [same hd m0 (h.trans i0.symm)]; simp
      · rw [same hd m1 (h.trans i1.symm)]; simp
    · simp only [List.mem_cons, List.not_mem_nil, or_false] at hd
      rcases hd with rfl | rfl
      · exact m0
      · exact m1
  have hL : L = [d0, d1] ∨ L = [d1, d0] := by
    match L, hperm with
    | [], h => have := h.length_eq; simp at this
    | [_], h => have := h.length_eq; simp at this
    | _ :: _ :: _ :: _, h => have := h.length_eq; simp at this
    | [a, b], h =>
      have ha : a = d0 ∨ a = d1 := by simpa using h.mem_iff.mp (show a ∈ [a, b] by simp)
      rcases ha with rfl | rfl
      · have := (List.perm_cons a).mp h
        rw [List.singleton_perm_singleton.mp this]; exact Or.inl rfl
      · have := (List.perm_cons a).mp (h.trans (List.Perm.swap a d0 []))
        rw [List.singleton_perm_singleton.mp this]; exact Or.inr rfl
  rcases hL with rfl | rfl
  · simp only [List.map_cons, List.map_nil, o0, o1] at hr
    have h4 : ((fileOps exX 10 [exOp 0, .iter] exF).1.map namesOf) = [none, some [p!"a", p!"b"]] := by decide +kernel
    rw [hr] at h4
    simp only [List.map_cons, List.map_nil, e1, h3] at h4
    revert h4
    simp
  · simp only [List.map_cons, List.map_nil, o0, o1] at hr
    have h4 : ((fileOps exX 10 [.iter, exOp 0] exF).1.map namesOf) = [some [], none] := by decide +kernel
    rw [hr] at h4
    simp only [List.map_cons, List.map_nil, e1, h3] at h4
    revert h4
    simp

/-- C41 for threads that do not write, delete or close: every interleaving is as one call after the other, `list(f)` included. -/
theorem C41_reading (x : Ctx) (n : Nat) (F : FileS) (c : Conf) (hr : TRun (callOf x n F.writable) OnlyReads (Conf.init F) c) :
    c.file = F ∧ ∃ L, Linearization x n F c.hist L F :=
  reads_linearizable hr

-- Thread 1 looks for a name while thread 0 has its iterator, which it then consumes.
example : ∃ c r, TRun (callOf exX 10 exF.writable) OnlyReads (Conf.init exF) c ∧ c.hist = [.call 0 0 .iter, .call 1 1 .len, .ret 1 r, .ret 0 (.ok (.names []))] := by
  have r0 := TRun.refl (impl := callOf exX 10 exF.writable) (ops := OnlyReads) (Conf.init exF)
  have r1 := r0.step (.invoke _ 0 .iter rfl trivial)
  have r2 := r1.step (.acquire _ 0 0 _ rfl rfl)
  have r3 := r2.step (.run _ 0 0 _ _ rfl)
  have r4 := r3.step (.leave _ 0 0 _ rfl)
  have r5 := r4.step (.invoke _ 1 .len rfl trivial)
  have r6 := r5.step (.acquire _ 1 1 _ rfl rfl)
  have r7 := r6.step (.run _ 1 1 _ _ rfl)
  have r8 := r7.step (.run _ 1 1 _ _ rfl)
  have r9 := r8.step (.release _ 1 1 _ rfl)
  have r10 := r9.step (.ret _ 1 1 _ rfl)
  have r11 := r10.step (.look _ 0 0 _ rfl)
  have r12 := r11.step (.ret _ 0 0 _ rfl)
  exact ⟨_, _, r12, rfl⟩

/-- C41: the order is consistent with each thread, since a thread returns from a call before it makes the next. -/
theorem C41_thread_order (impl : Op → Call) (ops : Op → Prop) (F : FileS) (c : Conf) (hr : TRun impl ops (Conf.init F) c) (i j t a b : Nat) (p q : Op) (hij : i < j)
    (hi : c.hist[i]? = some (.call a t p)) (hj : c.hist[j]? = some (.call b t q)) : Before c.hist (IsRet a) (IsCall b) := by
  have h : SeqOk c ∧ RetOk c ∧ NumOk c := by
    clear hi hj
    induction hr with
    | refl =>
      exact ⟨⟨(fun _ _ h => nomatch h), (fun _ _ _ h => nomatch h), (fun _ _ _ _ _ _ _ _ h => nomatch h)⟩, (fun _ _ _ _ _ _ h => nomatch h),
        (fun _ _ _ h => nomatch h), (fun _ _ h => nomatch h), (fun _ _ h => nomatch h)⟩
    | step _ st ih => exact seq_step ih st
  obtain ⟨k, r, k1, k2, k3⟩ := h.1.2.2 i j t a b p q hij hi hj
  exact ⟨k, j, _, _, k2, k3, hj, rfl, rfl⟩

-- Thread 2 calls twice in the example.
example : ∃ c, TRun (callOf exX 10 exF.writable) (· ≠ .iter) (Conf.init exF) c ∧ c.hist[2]? = some (.call 2 2 (exOp 2)) ∧ c.hist[6]? = some (.call 3 2 (exOp 2)) := by
  obtain ⟨c, h1, h2, _⟩ := ex_threads
  exact ⟨c, h1, by rw [h2]; rfl, by rw [h2]; rfl⟩

/-- C41: no call blocks forever: in whatever state the threads are, each of them can return from its call without any new calls being made. -/
theorem C41_no_deadlock (impl : Op → Call) (ops : Op → Prop) (F : FileS) (c : Conf) (hr : TRun impl ops (Conf.init F) c) (t : Nat) :
    ∃ d, TGo impl c d ∧ d.th t = .idle := by
  have hl : LockOk c ∧ InOk c := by
    induction hr with
    | refl => exact ⟨(fun _ h => nomatch h), (fun _ _ _ h => nomatch h)⟩
    | step _ st ih => exact lock_step ih st
  -- a thread with its result returns
  have fin : ∀ (c : Conf) (id : Nat) (r : Res Out), c.th t = .done id r → ∃ d, TGo impl c d ∧ d.th t = .idle :=
    fun c id r h => ⟨_, .one (.ret c t id r h), setTh_same _ _ _⟩
  -- a thread under the lock finishes
  have ins : ∀ (c : Conf) (id : Nat) (p : Prog), c.th t = .inside id p → ∃ d, TGo impl c d ∧ d.th t = .idle := by
    intro c id p h
    obtain ⟨d, g1, _, g3, _⟩ := holder_finishes impl p c t id h
    rcases g3 with ⟨r, g3⟩ | ⟨f, g3⟩
    · obtain ⟨e, e1, e2⟩ := fin d id r g3
      exact ⟨e, g1.trans e1, e2⟩
    · obtain ⟨e, e1, e2⟩ := fin { d with th := setTh d.th t (.done id (f d.file)) } id _ (setTh_same _ _ _)
      exact ⟨e, g1.trans (TGo.trans (.one (.look d t id f g3)) e1), e2⟩
  cases ht : c.th t with
  | idle => exact ⟨c, .refl c, ht⟩
  | done id r => exact fin c id r ht
  | inside id p => exact ins c id p ht
  | ready id cl =>
    cases cl with
    | now r =>
      obtain ⟨e, e1, e2⟩ := fin { c with th := setTh c.th t (.done id r) } id r (setTh_same _ _ _)
      exact ⟨e, TGo.trans (.one (.now c t id r ht)) e1, e2⟩
    | look f =>
      obtain ⟨e, e1, e2⟩ := fin { c with th := setTh c.th t (.done id (f c.file)) } id _ (setTh_same _ _ _)
      exact ⟨e, TGo.trans (.one (.look c t id f ht)) e1, e2⟩
    | locked p =>
      -- first the lock becomes free
      have free : ∃ d, TGo impl c d ∧ d.lock = none ∧ d.th t = .ready id (.locked p) := by
        cases hlk : c.lock with
        | none => exact ⟨c, .refl c, hlk, ht⟩
        | some u =>
          obtain ⟨i, q, hq⟩ := hl.1 u hlk
          obtain ⟨d, g1, g2, _, g4⟩ := holder_finishes impl q c u i hq
          refine ⟨d, g1, g2, ?_⟩
          have htu : t ≠ u := by rintro rfl; rw [ht] at hq; cases hq
          rw [g4 t htu, ht]
      obtain ⟨d, g1, g2, g3⟩ := free
      obtain ⟨e, e1, e2⟩ := ins { d with lock := some t, th := setTh d.th t (.inside id p) } id p (setTh_same _ _ _)
      exact ⟨e, g1.trans (TGo.trans (.one (.acquire d t id p g3 g2)) e1), e2⟩

-- Thread 2 is executing a call at the end of the example.
example : ∃ c, TRun (callOf exX 10 exF.writable) (· ≠ .iter) (Conf.init exF) c ∧ c.th 2 ≠ .idle := by
  obtain ⟨c, h1, _, _, h2⟩ := ex_threads
  exact ⟨c, h1, h2⟩

end HS
