import Verif.Spec.VirtSerial
import Mathlib.Data.List.Induction
/- C118: the virtual serial links and the mock radio. -/
namespace Verif.Props
open Verif.Virt

theorem link_append (a b : List (Side × LinkOp)) : ∀ l : Link, l.run (a ++ b) = ((l.run a).1 ++ ((l.run a).2.run b).1, ((l.run a).2.run b).2) := by
  induction a with
  | nil => intro l; rfl
  | cons o a ih => intro l; obtain ⟨s, o⟩ := o; simp only [List.cons_append, Link.run, ih, List.append_assoc]

theorem writtenAt_append (s : Side) (a b : List (Side × LinkOp)) : writtenAt s (a ++ b) = writtenAt s a ++ writtenAt s b := by
  induction a with
  | nil => rfl
  | cons o a ih =>
    obtain ⟨s', o⟩ := o
    cases o with
    | write d => simp only [List.cons_append, writtenAt, ih]; split <;> simp
    | _ => exact ih

theorem resultsAt_append (s : Side) (a b : List (Side × List UInt8)) : resultsAt s (a ++ b) = resultsAt s a ++ resultsAt s b := by
  simp [resultsAt]

/-- what is on the way to an end -/
def onTheWay (l : Link) (s : Side) : List UInt8 := (l.pipe s).buffer ++ (l.pipe s).queue.flatten

theorem link_step (l : Link) (s s' : Side) (o : LinkOp) (h : (s', o) ≠ (s, .resplit)) :
    onTheWay l s ++ writtenAt s.other [(s', o)] = (resultsAt s ((l.step s' o).1.toList.map fun d => (s', d))).flatten ++ onTheWay (l.step s' o).2 s := by
  cases o with
  | write d =>
    by_cases hs : s' = s
    · subst hs
      have : s'.other ≠ s' := by cases s' <;> decide
      have e : s' ≠ s'.other := Ne.symm this
      simp [Link.step, onTheWay, Link.setPipe, resultsAt, writtenAt, e]
    · have : s'.other = s := by revert hs; cases s' <;> cases s <;> simp [Side.other]
      have e : s' = s.other := by revert hs; cases s' <;> cases s <;> simp [Side.other]
      subst e
      simp [Link.step, onTheWay, Link.setPipe, resultsAt, writtenAt, this, Pipe.write]
  | read n =>
    by_cases hs : s' = s
    · subst hs
      simp only [Link.step, onTheWay, Link.setPipe, if_true, writtenAt, List.append_nil]
      generalize l.pipe s' = p
      unfold Pipe.read
      split
      · simp [resultsAt, ← List.append_assoc, List.take_append_drop]
      · rename_i hb
        have hb' : p.buffer = [] := by simpa using hb
        split
        · rename_i hq; simp [resultsAt, hb', hq]
        · rename_i d q hq; simp [resultsAt, hb', hq, ← List.append_assoc, List.take_append_drop]
    · have : ∀ x : Option (List UInt8), resultsAt s (x.toList.map fun d => (s', d)) = [] := by intro x; cases x <;> simp [resultsAt, hs]
      rw [this]
      simp [Link.step, onTheWay, Link.setPipe, writtenAt, Ne.symm hs]
  | resplit =>
    have hs : s' ≠ s := fun e => h (by rw [e])
    simp [Link.step, onTheWay, Link.setPipe, writtenAt, Ne.symm hs, resultsAt]

theorem link_conserve (s : Side) : ∀ (ops : List (Side × LinkOp)) (l : Link), (s, .resplit) ∉ ops → onTheWay l s ++ writtenAt s.other ops = (resultsAt s (l.run ops).1).flatten ++ onTheWay (l.run ops).2 s
  | [], l, _ => by simp [writtenAt, Link.run, resultsAt]
  | (s', o) :: ops, l, h => by
    have h1 := link_step l s s' o (fun e => h (by rw [e]; simp))
    have h2 := link_conserve s ops (l.step s' o).2 (fun e => h (List.mem_cons_of_mem _ e))
    rw [show (s', o) :: ops = [(s', o)] ++ ops from rfl, writtenAt_append, ← List.append_assoc, h1, List.append_assoc, h2, ← List.append_assoc]
    simp only [List.singleton_append, Link.run, resultsAt_append, List.flatten_append]

/-- **C118 (bridge link: order)**: as long as an end is not split anew, what it reads is a beginning of what the other end writes, whatever the sizes of the writes and of the buffers. -/
theorem C118_link_prefix (s : Side) (ops : List (Side × LinkOp)) (h : (s, .resplit) ∉ ops) : readAt s ops <+: writtenAt s.other ops := by
  have := link_conserve s ops Link.new h
  rw [show onTheWay Link.new s = [] from rfl, List.nil_append] at this
  exact ⟨_, this.symm⟩

/-- **C118 (bridge link: nothing is held back)**: a read has to wait only if everything the other end wrote has been read. -/
theorem C118_link_complete (s : Side) (ops : List (Side × LinkOp)) (h : (s, .resplit) ∉ ops) (n : Nat) (hr : readNext s ops n = none) : readAt s ops = writtenAt s.other ops := by
  have := link_conserve s ops Link.new h
  rw [show onTheWay Link.new s = [] from rfl, List.nil_append] at this
  unfold readNext at hr
  have hz : onTheWay (Link.new.run ops).2 s = [] := by
    unfold onTheWay
    have hr' : (((Link.new.run ops).2.pipe s).read n).1 = none := hr
    unfold Pipe.read at hr'
    split at hr'
    · cases hr'
    · rename_i hb
      have hb' : ((Link.new.run ops).2.pipe s).buffer = [] := by simpa using hb
      split at hr'
      · rename_i hq; rw [hb', hq]; rfl
      · cases hr'
  rw [this, hz, List.append_nil]; rfl

/-- **C118 (bridge link: progress)**: a read that does not wait returns at least a byte and never more than fit, unless the buffer or a message written is empty. -/
theorem C118_link_progress (s : Side) (ops : List (Side × LinkOp)) (n : Nat) (d : List UInt8) (hr : readNext s ops n = some d) : d.length ≤ n ∧ (0 < n → (s.other, .write []) ∉ ops → d ≠ []) := by
  have hr' : (((Link.new.run ops).2.pipe s).read n).1 = some d := hr
  have hq : (s.other, .write []) ∉ ops → ∀ m ∈ ((Link.new.run ops).2.pipe s).queue, m ≠ [] := by
    intro hne
    induction ops using List.reverseRecOn with
    | nil => simp [Link.run, Link.new]
    | append_singleton ops o ih =>
      clear hr hr'
      have ih' : ∀ m ∈ ((Link.new.run ops).2.pipe s).queue, m ≠ [] := by
        clear ih
        have hne' : (s.other, LinkOp.write []) ∉ ops := fun h => hne (List.mem_append_left _ h)
        clear hne
        induction ops using List.reverseRecOn with
        | nil => simp [Link.run, Link.new]
        | append_singleton ops o ih =>
          rw [link_append]
          exact step_ne _ s o (fun e => hne' (by rw [e]; simp)) (ih (fun h => hne' (List.mem_append_left _ h)))
      rw [link_append]
      exact step_ne _ s o (fun e => hne (by rw [e]; simp)) ih'
  unfold Pipe.read at hr'
  split at hr'
  · rename_i hb
    cases hr'
    refine ⟨by simp; omega, fun hn _ e => ?_⟩
    have := congrArg List.length e
    rw [List.length_take, List.length_nil] at this; omega
  · split at hr'
    · cases hr'
    · rename_i m q hm
      cases hr'
      refine ⟨by simp; omega, fun hn hne e => ?_⟩
      have h0 := hq hne m (by rw [hm]; simp)
      have := congrArg List.length e
      have h1 := List.length_pos_iff.mpr h0
      rw [List.length_take, List.length_nil] at this; omega
where
  step_ne (l : Link) (s : Side) (o : Side × LinkOp) (ho : o ≠ (s.other, .write [])) (h : ∀ m ∈ (l.pipe s).queue, m ≠ []) : ∀ m ∈ ((l.run [o]).2.pipe s).queue, m ≠ [] := by
    obtain ⟨s', o⟩ := o
    show ∀ m ∈ ((l.step s' o).2.pipe s).queue, m ≠ []
    cases o with
    | write d =>
      simp only [Link.step, Link.setPipe]
      split
      · rename_i hs
        intro m hm
        rw [← hs] at hm
        rcases List.mem_append.mp hm with hm | hm
        · exact h m hm
        · obtain rfl := List.mem_singleton.mp hm
          rintro rfl
          exact ho (by rw [hs]; cases s' <;> rfl)
      · exact h
    | read n =>
      simp only [Link.step, Link.setPipe]
      split
      · rename_i hs
        subst hs
        intro m hm
        apply h m
        revert hm
        unfold Pipe.read
        split
        · exact fun h => h
        · split
          · exact fun h => h
          · rename_i hq; rw [hq]; exact List.mem_cons_of_mem _
      · exact h
    | resplit =>
      simp only [Link.step, Link.setPipe]
      split
      · rename_i hs; subst hs; exact h
      · exact h

/-- **C118 (bridge link: all arrives)**: reading on with any buffer gets everything that was written. -/
theorem C118_link_drain (s : Side) (ops : List (Side × LinkOp)) (h : (s, .resplit) ∉ ops) (n : Nat) (hn : 0 < n) : ∃ k, readAt s (ops ++ List.replicate k (s, .read n)) = writtenAt s.other ops := by
  have key : ∀ (m : Nat) (l : Link), (onTheWay l s).length + (l.pipe s).queue.length ≤ m → ∃ k, onTheWay (l.run (List.replicate k (s, .read n))).2 s = [] := by
    intro m
    induction m with
    | zero =>
      intro l hl
      exact ⟨0, List.length_eq_zero_iff.mp (by simp only [List.replicate, Link.run]; omega)⟩
    | succ m ih =>
      intro l hl
      by_cases hz : onTheWay l s = []
      · exact ⟨0, hz⟩
      have : (onTheWay (l.step s (.read n)).2 s).length + ((l.step s (.read n)).2.pipe s).queue.length ≤ m := by
        simp only [Link.step, onTheWay, Link.setPipe, if_true] at hl hz ⊢
        generalize l.pipe s = p at hl hz
        unfold Pipe.read
        split
        · rename_i hb; simp at hl ⊢; omega
        · rename_i hb
          have hb' : p.buffer = [] := by simpa using hb
          split
          · rename_i hq; rw [hb', hq] at hz; exact absurd rfl hz
          · rename_i d q hq; rw [hb', hq] at hl; simp at hl ⊢; omega
      obtain ⟨k, hk⟩ := ih _ this
      exact ⟨k + 1, hk⟩
  obtain ⟨k, hk⟩ := key _ (Link.new.run ops).2 (Nat.le_refl _)
  refine ⟨k, ?_⟩
  have hc := link_conserve s (ops ++ List.replicate k (s, .read n)) Link.new (by
    intro hm
    rcases List.mem_append.mp hm with hm | hm
    · exact h hm
    · exact absurd (List.mem_replicate.mp hm).2 (by simp))
  rw [link_append] at hc
  simp only [hk, List.append_nil] at hc
  rw [show onTheWay Link.new s = [] from rfl, List.nil_append, writtenAt_append] at hc
  have hw : ∀ k, writtenAt s.other (List.replicate k (s, LinkOp.read n)) = [] := by
    intro k; induction k with
    | zero => rfl
    | succ k ih => exact ih
  rw [hw, List.append_nil] at hc
  rw [hc]
  unfold readAt
  rw [link_append]

example : readAt .b [(.a, .write [1, 2, 3]), (.b, .read 2), (.a, .write [4]), (.b, .read 5), (.b, .read 5), (.a, .read 1)] = [1, 2, 3, 4] := by decide

/-- **C118 (finding: empty write)**: a write of no bytes makes a read of the other end return no bytes, which `embedded_io` takes for the end of the stream, although the link is open. -/
theorem C118_link_empty_write (s : Side) (ops : List (Side × LinkOp)) (n : Nat) (hr : readNext s ops n = none) : readNext s (ops ++ [(s.other, .write [])]) n = some [] := by
  unfold readNext at hr ⊢
  rw [link_append]
  generalize (Link.new.run ops).2 = l at hr
  have hs : s.other.other = s := by cases s <;> rfl
  have hr' : ((l.pipe s).read n).1 = none := hr
  show ((Link.pipe (Link.setPipe l s.other.other _) s).read n).1 = some []
  rw [hs]
  simp only [Link.setPipe, if_true]
  unfold Pipe.read at hr'
  split at hr'
  · cases hr'
  · rename_i hb
    split at hr'
    · rename_i hq
      unfold Pipe.read Pipe.write
      rw [if_neg hb, hq]
      simp
    · cases hr'

/-- **C118 (finding: split anew)**: when an end that has read only part of a message is split anew, the rest of the message is lost: the next read has to wait. -/
theorem C118_link_resplit (s : Side) (ops : List (Side × LinkOp)) (n k : Nat) (d : List UInt8) (hr : readNext s ops k = none) :
    readNext s (ops ++ [(s.other, .write d), (s, .read n), (s, .resplit)]) k = none := by
  unfold readNext at hr ⊢
  rw [link_append]
  generalize (Link.new.run ops).2 = l at hr
  have hs : s.other.other = s := by cases s <;> rfl
  have hr' : ((l.pipe s).read k).1 = none := hr
  simp only [Link.run, Link.step, hs, Link.setPipe, if_true]
  unfold Pipe.read at hr'
  split at hr'
  · cases hr'
  · rename_i hb
    split at hr'
    · rename_i hq
      have e : ((l.pipe s).write d).read n = (some (d.take n), ⟨[], d.drop n⟩) := by
        unfold Pipe.read Pipe.write
        simp only [hq, List.nil_append]
        rw [if_neg hb]
      simp only [e, Pipe.resplit]
      rfl
    · cases hr'

example : readNext .b [] 1 = none ∧ readNext .b [(.a, .write [1, 2]), (.b, .read 1)] 4 = some [2] ∧ readNext .b [(.a, .write [1, 2]), (.b, .read 1), (.b, .resplit)] 4 = none := by decide

/-! ### The link of the launch simulator -/

/-- **C118 (simulator link)**: messages of at most `N` bytes read into buffers of at least `N` arrive whole, one a read, in order; a read waits only if all were received, and fails only if the other end is gone and all
were received. -/
theorem C118_msg (N : Nat) (ops : List MsgOp) (hw : ∀ d, .write d ∈ ops → d.length ≤ N) (hr : ∀ n, .read n ∈ ops → N ≤ n) (n : Nat) (hn : N ≤ n) :
    received (MsgPipe.run ⟨[], true⟩ ops).1 <+: messages ops ∧ .panic ∉ (MsgPipe.run ⟨[], true⟩ ops).1 ∧
    (((MsgPipe.run ⟨[], true⟩ ops).2.read n).1 = .pending ↔ received (MsgPipe.run ⟨[], true⟩ ops).1 = messages ops ∧ .close ∉ ops) ∧
    (((MsgPipe.run ⟨[], true⟩ ops).2.read n).1 = .err ↔ received (MsgPipe.run ⟨[], true⟩ ops).1 = messages ops ∧ .close ∈ ops) := by
  have key : ∀ (ops : List MsgOp) (p : MsgPipe), (∀ d, .write d ∈ ops → d.length ≤ N) → (∀ n, .read n ∈ ops → N ≤ n) → (∀ d ∈ p.queue, d.length ≤ N) →
      p.queue ++ (if p.open' then messages ops else []) = received (p.run ops).1 ++ (p.run ops).2.queue ∧ .panic ∉ (p.run ops).1 ∧ ∀ d ∈ (p.run ops).2.queue, d.length ≤ N := by
    intro ops
    induction ops with
    | nil => intro p _ _ hq; refine ⟨by simp [MsgPipe.run, received, messages], by simp [MsgPipe.run], hq⟩
    | cons o ops ih =>
      intro p hw hr hq
      have ih' := fun p' hq' => ih p' (fun d hd => hw d (List.mem_cons_of_mem _ hd)) (fun n hn => hr n (List.mem_cons_of_mem _ hn)) hq'
      cases o with
      | write d =>
        simp only [MsgPipe.run, MsgPipe.step, List.nil_append]
        cases hop : p.open' with
        | true =>
          obtain ⟨h1, h2, h3⟩ := ih' (p.write d) (by
            intro x hx
            rcases List.mem_append.mp hx with hx | hx
            · exact hq x hx
            · rw [List.mem_singleton.mp hx]; exact hw d (by simp))
          simp only [if_true]
          refine ⟨?_, h2, h3⟩
          rw [← h1]
          simp [MsgPipe.write, hop, messages]
        | false =>
          obtain ⟨h1, h2, h3⟩ := ih' p hq
          simp only [Bool.false_eq_true, if_false]
          refine ⟨?_, h2, h3⟩
          rw [← h1]
          simp [hop]
      | read n =>
        simp only [MsgPipe.run, MsgPipe.step]
        unfold MsgPipe.read
        cases hqq : p.queue with
        | cons d q =>
          rw [hqq] at hq
          obtain ⟨h1, h2, h3⟩ := ih' { p with queue := q } (fun x hx => hq x (by simp [hx]))
          have hd : d.length ≤ n := Nat.le_trans (hq d (by simp)) (hr n (by simp))
          simp only [hd, if_true]
          refine ⟨?_, by simpa using h2, h3⟩
          simp only [List.cons_append, List.nil_append, received, messages]
          rw [← h1]
        | nil =>
          obtain ⟨h1, h2, h3⟩ := ih' p hq
          rw [hqq] at h1
          dsimp only
          refine ⟨?_, ?_, h3⟩
          · split <;> rename_i hop
            · simp only [List.cons_append, List.nil_append, received, messages] at h1 ⊢
              rw [if_pos hop] at h1; exact h1
            · simp only [List.cons_append, List.nil_append, received] at h1 ⊢
              rw [if_neg hop] at h1; exact h1
          · cases p.open' <;> simpa using h2
      | tryRead =>
        simp only [MsgPipe.run, MsgPipe.step]
        unfold MsgPipe.tryRead
        cases hqq : p.queue with
        | cons d q =>
          rw [hqq] at hq
          obtain ⟨h1, h2, h3⟩ := ih' { p with queue := q } (fun x hx => hq x (by simp [hx]))
          refine ⟨?_, by simpa using h2, h3⟩
          simp only [List.cons_append, List.nil_append, received, messages]
          rw [← h1]
        | nil =>
          obtain ⟨h1, h2, h3⟩ := ih' p hq
          rw [hqq] at h1
          exact ⟨h1, h2, h3⟩
      | close =>
        simp only [MsgPipe.run, MsgPipe.step, List.nil_append]
        obtain ⟨h1, h2, h3⟩ := ih' { p with open' := false } hq
        refine ⟨?_, h2, h3⟩
        rw [← h1]
        simp [messages]
  obtain ⟨h1, h2, h3⟩ := key ops ⟨[], true⟩ hw hr (by simp)
  simp only [if_true, List.nil_append] at h1
  have hop : ∀ (ops : List MsgOp) (p : MsgPipe), (p.run ops).2.open' = true ↔ p.open' = true ∧ .close ∉ ops := by
    intro ops
    induction ops with
    | nil => intro p; simp [MsgPipe.run]
    | cons o ops ih =>
      intro p
      rw [MsgPipe.run, ih]
      cases o with
      | write d => simp only [MsgPipe.step]; split <;> simp [MsgPipe.write]
      | read n => simp only [MsgPipe.step, MsgPipe.read]; split <;> simp
      | tryRead => simp only [MsgPipe.step, MsgPipe.tryRead]; split <;> simp
      | close => simp [MsgPipe.step]
  have hop' := hop ops ⟨[], true⟩
  refine ⟨⟨_, h1.symm⟩, h2, ?_⟩
  generalize (MsgPipe.run ⟨[], true⟩ ops).2 = p at h1 h3 hop'
  unfold MsgPipe.read
  cases hq : p.queue with
  | cons d q =>
    rw [hq] at h1 h3
    have hd : d.length ≤ n := Nat.le_trans (h3 d (by simp)) hn
    simp only [hd, if_true]
    have hne : received (MsgPipe.run ⟨[], true⟩ ops).1 ≠ messages ops := by
      intro h
      rw [← h] at h1
      have := congrArg List.length h1
      simp at this
    simp [hne]
  | nil =>
    rw [hq, List.append_nil] at h1
    simp only [h1, true_and]
    cases ho : p.open' <;> simp_all

example : received (MsgPipe.run ⟨[], true⟩ [.write [1, 2], .write [3], .read 8, .close, .read 8]).1 = messages [.write [1, 2], .write [3], .read 8, .close, .read 8] := by decide

/-- **C118 (finding: message longer than the buffer)**: such a message is lost and the reader panics. -/
theorem C118_msg_panic (p : MsgPipe) (d : List UInt8) (q : List (List UInt8)) (n : Nat) (hq : p.queue = d :: q) (h : n < d.length) : p.read n = (.panic, { p with queue := q }) := by
  unfold MsgPipe.read
  rw [hq]
  simp [show ¬ d.length ≤ n by omega]

/-! ### The mock radio -/

theorem air_append (a b : List AirOp) : ∀ s : Air, s.run (a ++ b) = ((s.run a).1 ++ ((s.run a).2.run b).1, ((s.run a).2.run b).2) := by
  induction a with
  | nil => intro s; rfl
  | cons o a ih => intro s; simp only [List.cons_append, Air.run, ih, List.append_assoc]

theorem packages_append (a b : List AirRes) : packages (a ++ b) = packages a ++ packages b := by
  induction a with
  | nil => rfl
  | cons o a ih => cases o <;> simp [packages, ih]

theorem sent_snoc (ops : List AirOp) (o : AirOp) : sent (ops ++ [o]) = sent ops ++ (if .gone ∈ ops then [] else match o with | .tx p => if p.length ≤ 222 then [p] else [] | _ => []) := by
  induction ops with
  | nil => cases o <;> simp [sent]
  | cons x ops ih =>
    cases x with
    | tx p => simp only [List.cons_append, sent, ih]; split <;> simp
    | gone => simp [sent]
    | _ => simpa [sent] using ih

/-- state of the radio after a history -/
theorem air_state (ops : List AirOp) : (Air.new.run ops).2.value = (sent ops).getLastD [] ∧ (Air.new.run ops).2.version = (sent ops).length ∧ ((Air.new.run ops).2.alive = true ↔ .gone ∉ ops) ∧
    (Air.new.run ops).2.seen ≤ (Air.new.run ops).2.version ∧
    (.gone ∉ ops → (packages (Air.new.run ops).1).length + (if (Air.new.run ops).2.taking then 1 else 0) ≤ (Air.new.run ops).2.seen) := by
  induction ops using List.reverseRecOn with
  | nil => simp [Air.run, Air.new, sent, packages]
  | append_singleton ops o ih =>
    rw [air_append, sent_snoc]
    generalize hs : (Air.new.run ops).2 = s at ih
    obtain ⟨h1, h2, h3, h4, h5⟩ := ih
    cases o with
    | tx p =>
      by_cases hg : AirOp.gone ∈ ops
      · have ha : s.alive = false := by cases h : s.alive <;> simp_all
        simp only [Air.run, Air.step, ha, hg, if_true, List.append_nil]
        simp_all
      · have ha : s.alive = true := h3.mpr hg
        simp only [Air.run, Air.step, ha, hg, if_true, if_false, List.append_nil, Air.tx]
        split
        · simp only [packages_append, packages, List.append_nil]
          refine ⟨by simp, by simp [h2], by simp [ha, hg], by show s.seen ≤ s.version + 1; omega, fun _ => h5 hg⟩
        · simp only [packages_append, packages, List.append_nil]
          exact ⟨h1, h2, by simp [ha, hg], h4, fun _ => h5 hg⟩
    | poll =>
      have hgg : AirOp.gone ∈ ops ++ [AirOp.poll] ↔ AirOp.gone ∈ ops := by simp
      simp only [Air.run, Air.step, List.append_nil, hgg, ite_self, packages_append, packages]
      by_cases ht : s.taking
      · simp only [ht, if_true]
        refine ⟨h1, h2, h3, h4, fun hg => ?_⟩
        have := h5 hg; simpa [ht] using this
      · simp only [ht, if_false, Bool.false_eq_true]
        split
        · rename_i hv
          refine ⟨h1, h2, h3, Nat.le_refl _, fun hg => ?_⟩
          have := h5 hg; simp [ht] at this
          simp only [if_true]
          have : s.seen < s.version := by omega
          omega
        · split
          · refine ⟨h1, h2, h3, h4, fun hg => ?_⟩
            have := h5 hg; simpa [ht] using this
          · rename_i ha
            exact ⟨h1, h2, h3, h4, fun hg => absurd (h3.mpr hg) ha⟩
    | take =>
      have hgg : AirOp.gone ∈ ops ++ [AirOp.take] ↔ AirOp.gone ∈ ops := by simp
      simp only [Air.run, Air.step, List.append_nil, hgg, ite_self]
      split
      · rename_i ht
        refine ⟨h1, h2, h3, h4, fun hg => ?_⟩
        have := h5 hg
        simpa [packages_append, packages, ht] using this
      · rename_i ht
        refine ⟨h1, h2, h3, h4, fun hg => ?_⟩
        simpa [packages_append, packages, ht] using h5 hg
    | expired =>
      have hgg : AirOp.gone ∈ ops ++ [AirOp.expired] ↔ AirOp.gone ∈ ops := by simp
      simp only [Air.run, Air.step, List.append_nil, hgg, ite_self]
      split
      · rename_i ht
        refine ⟨h1, h2, h3, h4, fun hg => ?_⟩
        simpa [packages_append, packages, ht] using h5 hg
      · rename_i ht
        refine ⟨h1, h2, h3, h4, fun hg => ?_⟩
        simpa [packages_append, packages, ht] using h5 hg
    | gone =>
      simp only [Air.run, Air.step, List.append_nil, ite_self]
      exact ⟨h1, h2, by simp, h4, fun hg => absurd (by simp) hg⟩

/-- **C118 (radio: the newest)**: a receive returns the package sent last, never an older one. -/
theorem C118_air_newest (ops : List AirOp) (d : List UInt8) (h : .package d ∈ ((Air.new.run ops).2.step .take).1) : d = (sent ops).getLastD [] := by
  obtain ⟨h1, _⟩ := air_state ops
  simp only [Air.step] at h
  split at h
  · obtain rfl : d = (Air.new.run ops).2.value := by simpa using h
    exact h1
  · simp at h

/-- **C118 (radio: not more than was sent)**: while the sender is there, no more packages are received than were sent. -/
theorem C118_air_count (ops : List AirOp) (h : .gone ∉ ops) : (packages (Air.new.run ops).1).length ≤ (sent ops).length := by
  obtain ⟨_, h2, _, h4, h5⟩ := air_state ops
  have := h5 h
  omega

/-- **C118 (radio: delivery)**: a package that was sent is received by the next receive, also if receives with a time limit have timed out since; a time limit that ends never takes a package with it. -/
theorem C118_air_deliver (ops : List AirOp) (p : List UInt8) (k : Nat) (hp : p.length ≤ 222) (hg : .gone ∉ ops) (ht : (Air.new.run ops).2.taking = false) :
    packages (Air.new.run (ops ++ .tx p :: List.replicate k .expired ++ [.poll, .take])).1 = packages (Air.new.run ops).1 ++ [p] := by
  obtain ⟨_, _, h3, h4, _⟩ := air_state ops
  rw [List.append_assoc, air_append, packages_append]
  congr 1
  generalize (Air.new.run ops).2 = s at *
  have ha : s.alive = true := h3.mpr hg
  have hexp : ∀ (k : Nat) (s : Air), s.taking = false → (s.run (List.replicate k .expired ++ [.poll, .take])).1 = List.replicate k .timeout ++ (s.run [.poll, .take]).1 := by
    intro k
    induction k with
    | zero => intro s _; rfl
    | succ k ih =>
      intro s hs
      rw [List.replicate_succ, List.cons_append, Air.run]
      simp only [Air.step, hs, Bool.false_eq_true, if_false]
      rw [ih s hs, List.replicate_succ]; rfl
  have hpk : ∀ k, packages (List.replicate k AirRes.timeout) = [] := by
    intro k; induction k with
    | zero => rfl
    | succ k ih => exact ih
  rw [List.cons_append, Air.run]
  simp only [Air.step, ha, if_true, Air.tx, hp, List.nil_append]
  rw [hexp k ⟨p, s.version + 1, s.seen, true, s.taking⟩ ht, packages_append, hpk, List.nil_append]
  have hv : s.version + 1 ≠ s.seen := by omega
  simp only [Air.run, Air.step, ht, Bool.false_eq_true, if_false, ne_eq, hv, not_false_eq_true, if_true, List.nil_append, List.append_nil]
  rfl

example : (Air.new.run [.tx [1], .poll, .take, .poll]).2.taking = false ∧ packages (Air.new.run [.tx [1], .tx [2], .expired, .poll, .take]).1 = [[2]] := by decide

/-- **C118 (finding: received twice)**: when a package is sent just while another is being received, it is received twice. -/
theorem C118_air_twice (p q : List UInt8) (hp : p.length ≤ 222) (hq : q.length ≤ 222) : packages (Air.new.run [.tx p, .poll, .tx q, .take, .poll, .take]).1 = [q, q] := by
  simp [Air.run, Air.step, Air.tx, Air.new, hp, hq, packages]

/-- **C118 (finding: sender gone)**: once the sender is gone, every receive returns at once with the last package again. -/
theorem C118_air_gone (ops : List AirOp) (k : Nat) (ht : (Air.new.run ops).2.taking = false) :
    packages (Air.new.run (ops ++ .gone :: (List.replicate k [AirOp.poll, .take]).flatten)).1 = packages (Air.new.run ops).1 ++ List.replicate k ((sent ops).getLastD []) := by
  obtain ⟨h1, _⟩ := air_state ops
  rw [air_append, packages_append]
  congr 1
  rw [← h1]
  generalize (Air.new.run ops).2 = s at ht
  have key : ∀ (k : Nat) (s : Air), s.taking = false → s.alive = false → packages (s.run (List.replicate k [AirOp.poll, .take]).flatten).1 = List.replicate k s.value := by
    intro k
    induction k with
    | zero => intro s _ _; rfl
    | succ k ih =>
      intro s ht ha
      rw [List.replicate_succ, List.flatten_cons, air_append, packages_append, List.replicate_succ]
      by_cases hv : s.version = s.seen
      · have e : s.run [.poll, .take] = ([.package s.value], s) := by
          obtain ⟨v, ver, seen, alive, taking⟩ := s
          simp only at ht ha hv; subst ht; subst ha; subst hv
          simp [Air.run, Air.step]
        rw [e, ih s ht ha]; rfl
      · have e : s.run [.poll, .take] = ([.package s.value], { s with seen := s.version }) := by
          obtain ⟨v, ver, seen, alive, taking⟩ := s
          simp only at ht ha hv; subst ht; subst ha
          simp [Air.run, Air.step, hv]
        rw [e, ih { s with seen := s.version } ht ha]; rfl
  rw [Air.run]
  exact key k _ ht rfl

end Verif.Props
