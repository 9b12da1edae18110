import Verif.Lemmas.OverAll
/-
Files with values written over others.
-/
namespace HS
open Spec

theorem wrote_reach {x : Ctx} {n : Nat} {F F' : FileS} {p : PathArg} {ns : List Str} {v : Val} (hw : Wrote x n F p ns v F') : Reach x F' := by
  have h := Reach.wrote n [(p, v)] hw.reach (by
    intro pv hpv
    rw [List.mem_singleton] at hpv
    subst hpv
    intro h
    exact hw.notRoot (addr_unique hw.addr h))
  have h2 : (fileWrites x n [(p, v)] F) = (.ok (), F') := hw.ok
  rw [h2] at h
  exact h

/-- A write through `File` over something. -/
theorem wrote_over {x : Ctx} (ho : RtOpts x.o) {n : Nat} {F F' : FileS} {p : PathArg} {ns : List Str} {v : Val} (hw : Wrote x n F p ns v F')
    (hold : OldOk x.o F.st.heap ns v) (hR : DistinctDraws x F.st.rpos F'.st.rpos) (hv : Good x.o v) :
    OffRefs x.o ns ∧ ns.all nameOk = true ∧ OverOut x n F'.st.heap ns v := by
  obtain ⟨gs, t, s1, g, ob, r⟩ := wrote_run (Spec.RtOpts.names ho) hw
  obtain ⟨r1, r2, r3, r4⟩ := r.reqG.ok g rfl
  have hns := r.names
  have hoff := r.off
  subst hns
  have hold1 : OldOk x.o s1.heap (commonComps gs ++ [t]) v := by
    rcases r3 with h3 | h3
    · rw [h3]; exact hold
    · intro q hq
      obtain ⟨a, q1, q2⟩ := lpath_snoc hq
      rw [lpath_fun q1 r1, LinkAt, h3] at q2
      cases q2
  have hb : s1.rpos = F.st.rpos := r.reqG.bk.2.2.2.1
  obtain ⟨q, rfl, _, out⟩ := writeData_over ho n s1 g _ _ t v F'.st ob F'.st.rpos r.inv r.tree r1 hoff hold1 (by rw [hb]; exact hR) (Nat.le_refl _) hv r.run
  refine ⟨hoff, ?_, out⟩
  simp only [List.all_append, List.all_cons, List.all_nil, Bool.and_true, Bool.and_eq_true]
  exact ⟨r4, writeData_nameOk r.run⟩

theorem OverOut.more {x : Ctx} {n m : Nat} {h : Heap} {ms : List Str} {v : Val} (ho : OverOut x n h ms v) (hm : n ≤ m) : OverOut x m h ms v := by
  obtain ⟨h1, q, S, h2, h3, h4, h5⟩ := ho
  exact ⟨h1, q, S, h2, h3, h4, fun ro V excl m c1 c2 c3 c4 => h5 ro V excl m c1 c2 c3 (Nat.le_trans hm c4)⟩

/-- What there is at the place last written to. -/
theorem lastWritten_out {x : Ctx} (ho : RtOpts x.o) {N : Nat} {ns : List Str} {F : FileS} {v : Val} (h : LastWritten x N ns F v) :
    RefsPathOk x.o ∧ Reach x F ∧ OffRefs x.o ns ∧ ns.all nameOk = true ∧ OverOut x N F.st.heap ns v := by
  induction h with
  | new hw hv hn =>
    have hw' : Wrote x _ _ _ ns _ _ := ⟨hw.refs, hw.reach, hw.rw, hw.addr, hw.notRoot, hw.ok⟩
    obtain ⟨c1, c2, c3⟩ := wrote_over ho hw' (fun q hq => absurd ⟨q, hq⟩ hw.free) hw.draws hv
    exact ⟨hw.refs, wrote_reach hw', c1, c2, c3.more hn⟩
  | over _ hw hov hv hn hR ih =>
    obtain ⟨_, _, _, _, k⟩ := ih
    obtain ⟨c1, c2, c3⟩ := wrote_over ho hw (fun q hq => ⟨_, k.kind, hov⟩) hR hv
    exact ⟨hw.refs, wrote_reach hw, c1, c2, c3.more hn⟩
  | other n op _ he ih =>
    obtain ⟨h1, h2, h3, h4, h5⟩ := ih
    obtain ⟨a, hr⟩ := fileOp_away (n := n) h1 (Spec.RtOpts.names ho) h2 h3 he
    exact ⟨h1, hr, h3, h4, h5.away (reach_keep h1 (Spec.RtOpts.names ho) h2).2 a⟩

end HS
