import Verif.Model.Buzzer
/-
C101: beeps are played in the order they were asked for, one after the other; what is lost, and what the arming beeps tell.
-/
namespace Verif.Props
open Verif Verif.Buzz

/-- the tones published after the first poll of the runner, in order: independent of what the runner does -/
def askedFor : List Buzz.Op → List Tone
  | [] => []
  | .poll _ :: rest => rest.filterMap fun o => match o with | .publish t => some t | .poll _ => none
  | .publish _ :: rest => askedFor rest

/-- the times of the polls never go back -/
def clockForward : Nat → List Buzz.Op → Prop
  | _, [] => True
  | now, .poll t :: rest => now ≤ t ∧ clockForward t rest
  | now, .publish _ :: rest => clockForward now rest

/-- the start times of neighbours are at least the first tone's duration and silence apart -/
def spaced : List (Nat × Tone × Nat) → Prop
  | a :: b :: rest => a.2.2 + a.2.1.duration + a.2.1.silence ≤ b.2.2 ∧ spaced (b :: rest)
  | _ => True

/-- no more than ten tones wait at any point of the history -/
def neverOverfull (s : Buzz.St) : List Buzz.Op → Prop
  | [] => s.sent.length ≤ s.pos + 10
  | o :: rest => s.sent.length ≤ s.pos + 10 ∧ neverOverfull (s.step o) rest

theorem spaced_snoc : ∀ (l : List (Nat × Tone × Nat)) (x : Nat × Tone × Nat), spaced l → (∀ y, l.getLast? = some y → y.2.2 + y.2.1.duration + y.2.1.silence ≤ x.2.2) → spaced (l ++ [x]) := by
  intro l
  induction l with
  | nil => intro x _ _; trivial
  | cons a l ih =>
    intro x h hx
    cases l with
    | nil => exact ⟨hx a rfl, trivial⟩
    | cons b l => exact ⟨h.1, ih x h.2 (fun y hy => hx y (by rw [List.getLast?_cons_cons]; exact hy))⟩

/-- what holds of every reachable state -/
structure BuzzInv (s : Buzz.St) (now : Nat) : Prop where
  pos : s.pos ≤ s.sent.length
  ours : ∀ x ∈ s.played, x.1 < s.pos ∧ s.sent[x.1]? = some x.2.1
  inc : s.played.Pairwise fun a b => a.1 < b.1
  gap : spaced s.played
  fresh : s.phase = .notStarted → s.sent = [] ∧ s.played = [] ∧ s.pos = 0
  last : ∀ y, s.played.getLast? = some y → match s.phase with
    | .notStarted => False
    | .idle => y.2.2 + y.2.1.duration + y.2.1.silence ≤ now
    | .playing t since => y.2.1 = t ∧ y.2.2 = since ∧ since ≤ now
    | .silent t since => y.2.1 = t ∧ y.2.2 + t.duration ≤ since ∧ since ≤ now

theorem buzz_inv_publish {s : Buzz.St} {now : Nat} (h : BuzzInv s now) (t : Tone) : BuzzInv (s.publish t) now := by
  unfold St.publish
  split
  · exact h
  · rename_i hp
    refine ⟨by show s.pos ≤ (s.sent ++ [t]).length; simp; have := h.pos; omega, ?_, h.inc, h.gap, fun e => absurd e hp, h.last⟩
    intro x hx
    have := h.ours x hx
    refine ⟨this.1, ?_⟩
    show (s.sent ++ [t])[x.1]? = _
    rw [List.getElem?_append_left (by have := h.pos; omega)]
    exact this.2

theorem buzz_next_head {s : Buzz.St} {t : Tone} (h : (PubSub.unread 10 s.sent s.pos).head? = some t) :
    s.sent[PubSub.next 10 s.sent s.pos]? = some t ∧ PubSub.next 10 s.sent s.pos < s.sent.length ∧ s.pos ≤ PubSub.next 10 s.sent s.pos := by
  unfold PubSub.unread at h
  rw [List.head?_drop] at h
  refine ⟨h, ?_, by unfold PubSub.next; omega⟩
  exact (List.getElem?_eq_some_iff.mp h).1

theorem buzz_inv_poll {s : Buzz.St} {now t : Nat} (h : BuzzInv s now) (ht : now ≤ t) : BuzzInv (s.poll t) t := by
  unfold St.poll
  split
  · rename_i hp
    obtain ⟨a, b, c⟩ := h.fresh hp
    exact ⟨h.pos, h.ours, h.inc, h.gap, (by intro e; cases e), (by intro y hy; rw [show s.played = [] from b] at hy; cases hy)⟩
  · rename_i hp
    split
    · refine ⟨h.pos, h.ours, h.inc, h.gap, (by rw [hp]; intro e; cases e), ?_⟩
      intro y hy
      have := h.last y hy
      rw [hp] at this ⊢
      simp only at this ⊢
      omega
    · rename_i tone hh
      obtain ⟨g1, g2, g3⟩ := buzz_next_head hh
      refine ⟨by show PubSub.next 10 s.sent s.pos + 1 ≤ s.sent.length; omega, ?_, ?_, ?_, (by intro e; cases e), ?_⟩
      · intro x hx
        rcases List.mem_append.mp hx with hx | hx
        · have := h.ours x hx
          exact ⟨by show x.1 < PubSub.next 10 s.sent s.pos + 1; omega, this.2⟩
        · rw [List.mem_singleton.mp hx]; exact ⟨by show PubSub.next 10 s.sent s.pos < PubSub.next 10 s.sent s.pos + 1; omega, g1⟩
      · apply List.pairwise_append.mpr
        refine ⟨h.inc, List.pairwise_singleton _ _, ?_⟩
        intro a ha b hb
        rw [List.mem_singleton.mp hb]
        have := (h.ours a ha).1
        show a.1 < PubSub.next 10 s.sent s.pos
        omega
      · apply spaced_snoc _ _ h.gap
        intro y hy
        have := h.last y hy
        rw [hp] at this
        simp only at this
        show y.2.2 + y.2.1.duration + y.2.1.silence ≤ t
        omega
      · intro y hy
        rw [List.getLast?_append] at hy
        simp at hy
        subst hy
        exact ⟨rfl, rfl, Nat.le_refl _⟩
  · rename_i tone since hp
    split
    · rename_i hd
      refine ⟨h.pos, h.ours, h.inc, h.gap, (by intro e; cases e), ?_⟩
      intro y hy
      have := h.last y hy
      rw [hp] at this
      simp only at this ⊢
      exact ⟨this.1, by omega, Nat.le_refl _⟩
    · refine ⟨h.pos, h.ours, h.inc, h.gap, (by rw [hp]; intro e; cases e), ?_⟩
      intro y hy
      have := h.last y hy
      rw [hp] at this ⊢
      simp only at this ⊢
      exact ⟨this.1, this.2.1, by omega⟩
  · rename_i tone since hp
    split
    · rename_i hd
      refine ⟨h.pos, h.ours, h.inc, h.gap, (by intro e; cases e), ?_⟩
      intro y hy
      have := h.last y hy
      rw [hp] at this
      simp only at this ⊢
      rw [this.1]
      omega
    · refine ⟨h.pos, h.ours, h.inc, h.gap, (by rw [hp]; intro e; cases e), ?_⟩
      intro y hy
      have := h.last y hy
      rw [hp] at this ⊢
      simp only at this ⊢
      exact ⟨this.1, this.2.1, by omega⟩

theorem buzz_sent (s : Buzz.St) (ops : List Buzz.Op) (hp : s.phase ≠ .notStarted) :
    (s.run ops).sent = s.sent ++ ops.filterMap (fun o => match o with | .publish t => some t | .poll _ => none) ∧ (s.run ops).phase ≠ .notStarted := by
  induction ops generalizing s with
  | nil => exact ⟨by simp [St.run], hp⟩
  | cons o ops ih =>
    cases o with
    | publish t =>
      have := ih (s.publish t) (by unfold St.publish; rw [if_neg hp]; exact hp)
      refine ⟨?_, this.2⟩
      show ((s.publish t).run ops).sent = _
      rw [this.1, St.publish, if_neg hp]
      simp
    | poll t =>
      have h2 : (s.poll t).phase ≠ .notStarted ∧ (s.poll t).sent = s.sent := by
        unfold St.poll; split
        · exact ⟨by simp, rfl⟩
        · split <;> simp_all
        · split <;> simp_all
        · split <;> simp_all
      have := ih (s.poll t) h2.1
      refine ⟨?_, this.2⟩
      show ((s.poll t).run ops).sent = _
      rw [this.1, h2.2]
      rfl

theorem buzz_sent_new (ops : List Buzz.Op) : (St.new.run ops).sent = askedFor ops := by
  induction ops with
  | nil => rfl
  | cons o ops ih =>
    cases o with
    | publish t => exact ih
    | poll t =>
      have := buzz_sent ({ St.new with phase := .idle }) ops (by simp)
      show (St.run { St.new with phase := .idle } ops).sent = _
      rw [this.1]; rfl

theorem buzz_inv_run : ∀ (ops : List Buzz.Op) (s : Buzz.St) (now : Nat), BuzzInv s now → clockForward now ops → ∃ now', BuzzInv (s.run ops) now' := by
  intro ops
  induction ops with
  | nil => intro s now h _; exact ⟨now, h⟩
  | cons o ops ih =>
    intro s now h hc
    cases o with
    | publish t => exact ih _ now (buzz_inv_publish h t) hc
    | poll t => exact ih _ t (buzz_inv_poll h hc.1) hc.2

theorem buzz_inv_new : BuzzInv St.new 0 := by
  refine ⟨Nat.le_refl _, ?_, List.Pairwise.nil, trivial, fun _ => ⟨rfl, rfl, rfl⟩, ?_⟩
  · intro x hx; cases hx
  · intro y hy; cases hy

/-- **C101** Whatever happens: what the buzzer plays are the tones asked for (since the runner's first poll), each at most once, in the order they were asked for; and a tone starts only after the one before it was
played for its duration and followed by its silence. -/
theorem C101_in_order (ops : List Buzz.Op) (hc : clockForward 0 ops) :
    (∀ x ∈ (St.new.run ops).played, (askedFor ops)[x.1]? = some x.2.1) ∧ (St.new.run ops).played.Pairwise (fun a b => a.1 < b.1) ∧ spaced (St.new.run ops).played := by
  obtain ⟨_, h⟩ := buzz_inv_run ops _ 0 buzz_inv_new hc
  rw [← buzz_sent_new]
  exact ⟨fun x hx => (h.ours x hx).2, h.inc, h.gap⟩

theorem buzz_all : ∀ (ops : List Buzz.Op) (s : Buzz.St), neverOverfull s ops → s.pos ≤ s.sent.length → s.played.map (·.1) = List.range s.pos → (s.phase = .notStarted → s.sent = [] ∧ s.pos = 0) →
    (s.run ops).played.map (·.1) = List.range (s.run ops).pos := by
  intro ops
  induction ops with
  | nil => intro s _ _ h _; exact h
  | cons o ops ih =>
    intro s hn hp h hs
    obtain ⟨h0, hn⟩ := hn
    apply ih _ hn
    · cases o with
      | publish t => show (s.publish t).pos ≤ (s.publish t).sent.length; unfold St.publish; split
                     · exact hp
                     · show s.pos ≤ (s.sent ++ [t]).length; simp; omega
      | poll t =>
        show (s.poll t).pos ≤ (s.poll t).sent.length
        unfold St.poll; split
        · exact hp
        · split
          · exact hp
          · rename_i hh; exact (buzz_next_head hh).2.1
        · split <;> exact hp
        · split <;> exact hp
    · cases o with
      | publish t => show (s.publish t).played.map (·.1) = List.range (s.publish t).pos; unfold St.publish; split <;> exact h
      | poll t =>
        show (s.poll t).played.map (·.1) = List.range (s.poll t).pos
        unfold St.poll; split
        · exact h
        · split
          · exact h
          · have : PubSub.next 10 s.sent s.pos = s.pos := by unfold PubSub.next; omega
            simp only [this, List.map_append, List.map_cons, List.map_nil, h, List.range_succ]
        · split <;> exact h
        · split <;> exact h
    · cases o with
      | publish t => show (s.publish t).phase = .notStarted → (s.publish t).sent = [] ∧ (s.publish t).pos = 0; unfold St.publish; split
                     · exact hs
                     · rename_i hx; intro e; exact absurd e hx
      | poll t =>
        intro e
        exfalso
        change (s.poll t).phase = .notStarted at e
        revert e
        unfold St.poll; split
        · simp
        · split <;> simp_all
        · split <;> simp_all
        · split <;> simp_all

/-- **C101** as long as never more than ten tones wait, none is lost: what was played are the first tones asked for, all of them, and the others still wait -/
theorem C101_none_lost (ops : List Buzz.Op) (hc : clockForward 0 ops) (hn : neverOverfull St.new ops) :
    (St.new.run ops).played.map (·.2.1) = (askedFor ops).take (St.new.run ops).pos := by
  have h1 := buzz_all ops St.new hn (Nat.le_refl _) rfl (fun _ => ⟨rfl, rfl⟩)
  obtain ⟨_, h⟩ := buzz_inv_run ops _ 0 buzz_inv_new hc
  rw [← buzz_sent_new]
  apply List.ext_getElem?
  intro i
  have hlen : (St.new.run ops).played.length = (St.new.run ops).pos := by have := congrArg List.length h1; simpa using this
  by_cases hi : i < (St.new.run ops).pos
  · have hi' : i < (St.new.run ops).played.length := by omega
    have hfst : ((St.new.run ops).played[i]).1 = i := by
      have := congrArg (fun l => l[i]?) h1
      simp only [List.getElem?_map, List.getElem?_range hi, List.getElem?_eq_getElem hi', Option.map_some, Option.some.injEq] at this
      exact this
    have := (h.ours _ (List.getElem_mem hi')).2
    rw [hfst] at this
    rw [List.getElem?_map, List.getElem?_eq_getElem hi', List.getElem?_take_of_lt hi, this]
    rfl
  · rw [List.getElem?_eq_none (by simp; omega), List.getElem?_eq_none (by simp; omega)]

/-- polls that bring the runner to its next tone and let it finish, starting at `now` -/
def oneTone (now : Nat) (t : Tone) : List Buzz.Op := [.poll now, .poll (now + t.duration), .poll (now + t.duration + t.silence)]

/-- the polls that play a list of tones, one after the other -/
def playAll (now : Nat) : List Tone → List Buzz.Op
  | [] => []
  | t :: ts => oneTone now t ++ playAll (now + t.duration + t.silence) ts

/-- **C101** the runner gets on: from a state in which it waits with at most ten unread tones, polling it at the times its delays end plays all of them, in order, without a pause beyond their own silences -/
theorem C101_plays (s : Buzz.St) (now : Nat) (hi : s.phase = .idle) (hp : s.pos ≤ s.sent.length) (h10 : s.sent.length ≤ s.pos + 10) :
    let s' := s.run (playAll now (s.sent.drop s.pos))
    s'.phase = .idle ∧ s'.pos = s'.sent.length ∧ s'.sent = s.sent ∧ s'.played.map (·.2.1) = s.played.map (·.2.1) ++ s.sent.drop s.pos := by
  have key : ∀ (l : List Tone) (s : Buzz.St) (now : Nat), s.phase = .idle → s.sent.drop s.pos = l → s.pos ≤ s.sent.length → s.sent.length ≤ s.pos + 10 →
      (s.run (playAll now l)).phase = .idle ∧ (s.run (playAll now l)).pos = s.sent.length ∧ (s.run (playAll now l)).sent = s.sent ∧
      (s.run (playAll now l)).played.map (·.2.1) = s.played.map (·.2.1) ++ l := by
    intro l
    induction l with
    | nil =>
      intro s now hi hl hp h10
      refine ⟨hi, ?_, rfl, by simp [playAll, St.run]⟩
      have := congrArg List.length hl
      simp at this
      show s.pos = _
      omega
    | cons t ts ih =>
      intro s now hi hl hp h10
      have hnext : PubSub.next 10 s.sent s.pos = s.pos := by unfold PubSub.next; omega
      have hlen : s.pos < s.sent.length := by have := congrArg List.length hl; simp at this; omega
      have hhead : (PubSub.unread 10 s.sent s.pos).head? = some t := by unfold PubSub.unread; rw [hnext, hl]; rfl
      have h1 : s.poll now = { s with pos := s.pos + 1, phase := .playing t now, played := s.played ++ [(s.pos, t, now)] } := by
        unfold St.poll; rw [hi]; simp only [hhead, hnext]
      have h2 : (s.poll now).poll (now + t.duration) = { s with pos := s.pos + 1, phase := .silent t (now + t.duration), played := s.played ++ [(s.pos, t, now)] } := by
        rw [h1]; unfold St.poll; simp
      have h3 : ((s.poll now).poll (now + t.duration)).poll (now + t.duration + t.silence) = { s with pos := s.pos + 1, phase := .idle, played := s.played ++ [(s.pos, t, now)] } := by
        rw [h2]; unfold St.poll; simp
      have e : s.run (playAll now (t :: ts)) = ({ s with pos := s.pos + 1, phase := .idle, played := s.played ++ [(s.pos, t, now)] } : Buzz.St).run (playAll (now + t.duration + t.silence) ts) := by
        rw [← h3]; simp only [playAll, oneTone, St.run, List.foldl_append, List.foldl_cons, List.foldl_nil, St.step]
      have hdrop : s.sent.drop (s.pos + 1) = ts := by rw [← List.drop_drop, hl]; rfl
      rw [e]
      have := ih { s with pos := s.pos + 1, phase := .idle, played := s.played ++ [(s.pos, t, now)] } (now + t.duration + t.silence) rfl hdrop (by show s.pos + 1 ≤ s.sent.length; omega) (by show s.sent.length ≤ s.pos + 1 + 10; omega)
      refine ⟨this.1, this.2.1, this.2.2.1, ?_⟩
      rw [this.2.2.2]; simp
  obtain ⟨a, b, c, d⟩ := key _ s now hi rfl hp h10
  exact ⟨a, by rw [b, c], c, d⟩

/-- **C101 (finding)** with an eleventh waiting tone the oldest is dropped: of eleven tones asked for in a row only the last ten are ever played -/
theorem C101_eleven (l : List Tone) (h : l.length = 11) (now : Nat) :
    (((St.new.poll now).run (l.map .publish)).poll now).played.map (·.2.1) = (l.drop 1).take 1 ∧ (((St.new.poll now).run (l.map .publish)).poll now).pos = 2 := by
  have hs : ∀ (l : List Tone) (s : Buzz.St), s.phase = .idle → s.run (l.map .publish) = { s with sent := s.sent ++ l } := by
    intro l
    induction l with
    | nil => intro s _; simp [St.run]
    | cons t l ih =>
      intro s hp
      show (s.publish t).run (l.map .publish) = _
      rw [St.publish, if_neg (by rw [hp]; simp), ih { s with sent := s.sent ++ [t] } hp]
      simp
  rw [hs l _ rfl]
  have hn : PubSub.next 10 l 0 = 1 := by unfold PubSub.next; omega
  have h1 : 1 < l.length := by omega
  have hh : (PubSub.unread 10 l 0).head? = some l[1] := by unfold PubSub.unread; rw [hn, List.head?_drop, List.getElem?_eq_getElem h1]
  have e : St.poll { (St.new.poll now) with sent := (St.new.poll now).sent ++ l } now = ⟨l, 2, .playing l[1] now, [(1, l[1], now)]⟩ := by
    show (match (PubSub.unread 10 ([] ++ l) 0).head? with
      | none => _
      | some t => _) = _
    rw [List.nil_append, hh]
    show (⟨l, PubSub.next 10 l 0 + 1, .playing l[1] now, [(PubSub.next 10 l 0, l[1], now)]⟩ : Buzz.St) = _
    rw [hn]
  rw [e]
  refine ⟨?_, rfl⟩
  show [l[1]] = _
  rw [List.drop_eq_getElem_cons h1]; rfl

/-- **C101 (finding)** what is asked for before the runner is polled for the first time is never played -/
theorem C101_too_early (early : List Tone) (ops : List Buzz.Op) : St.new.run (early.map .publish ++ ops) = St.new.run ops := by
  induction early with
  | nil => rfl
  | cons t l ih => exact ih

/-- low then high: on -/
def risingBeeps : List Tone := [⟨2000, 700, 300⟩, ⟨3000, 700, 300⟩]

/-- high then low: off -/
def fallingBeeps : List Tone := [⟨3000, 700, 300⟩, ⟨2000, 700, 300⟩]

/-- **C101** the arming beeps: one pair for every change of the debounced switch between one message and the next, rising for on and falling for off, none otherwise; before the first message the task takes
"armed" (switch and software) for the switch -/
theorem C101_arming (armed : Bool) (msgs : List Bool) (i : Nat) (hi : i < msgs.length) :
    (beeps armed msgs)[i + 1]? = some (if (armed :: msgs)[i]? = some msgs[i] then [] else if msgs[i] then risingBeeps else fallingBeeps) := by
  have key : ∀ (msgs : List Bool) (old : Bool) (i : Nat) (hi : i < msgs.length), (beepLoop old msgs)[i]? = some (if (old :: msgs)[i]? = some msgs[i] then [] else if msgs[i] then up else down) := by
    intro msgs
    induction msgs with
    | nil => intro old i hi; exact absurd hi (by simp)
    | cons m ms ih =>
      intro old i hi
      cases i with
      | zero => cases old <;> cases m <;> rfl
      | succ i => exact ih m i (by simpa using hi)
  exact key msgs armed i hi

theorem beeps_last (old : Bool) (msgs : List Bool) : ∀ pre x, (beepLoop old msgs).filter (· ≠ []) = pre ++ [x] → x = if (msgs.getLast?.getD old) then up else down := by
  induction msgs generalizing old with
  | nil => intro pre x h; simp [beepLoop] at h
  | cons m ms ih =>
    intro pre x h
    rw [show (m :: ms).getLast?.getD old = ms.getLast?.getD m by cases ms <;> simp [List.getLast?_cons]]
    simp only [beepLoop] at h
    by_cases hlast : (beepLoop m ms).filter (· ≠ []) = []
    · -- no later change: the switch stays at `m`
      have hm : ms.getLast?.getD m = m := by
        have : ∀ (ms : List Bool) (m : Bool), (beepLoop m ms).filter (· ≠ []) = [] → ms.getLast?.getD m = m := by
          intro ms
          induction ms with
          | nil => intro m _; rfl
          | cons k ks ihk =>
            intro m hf
            simp only [beepLoop] at hf
            have hk : k = m := by cases k <;> cases m <;> simp [beepTurn, up, down] at hf ⊢
            subst hk
            rw [show (k :: ks).getLast?.getD k = ks.getLast?.getD k by cases ks <;> simp [List.getLast?_cons]]
            apply ihk
            have : beepTurn k k = [] := by cases k <;> rfl
            rw [this] at hf; simpa using hf
        exact this ms m hlast
      rw [hm]
      rw [List.filter_cons, hlast] at h
      cases old <;> cases m <;> simp [beepTurn, up, down] at h ⊢
      · exact (List.singleton_inj.mp (List.append_inj' (show ([] : List (List Tone)) ++ [_] = pre ++ [x] from h) rfl).2).symm
      · exact (List.singleton_inj.mp (List.append_inj' (show ([] : List (List Tone)) ++ [_] = pre ++ [x] from h) rfl).2).symm
    · obtain ⟨pre', y, e⟩ : ∃ pre' y, (beepLoop m ms).filter (· ≠ []) = pre' ++ [y] := ⟨_, _, (List.dropLast_concat_getLast hlast).symm⟩
      have := ih m pre' y e
      rw [← this]
      rw [List.filter_cons, e] at h
      split at h
      · rw [← List.cons_append] at h
        exact ((List.append_inj' h rfl).2 |> List.singleton_inj.mp).symm
      · exact ((List.append_inj' h rfl).2 |> List.singleton_inj.mp).symm

/-- **C101** at the start: rising beeps if armed, none otherwise -/
theorem C101_arming_start (armed : Bool) (msgs : List Bool) : (beeps armed msgs)[0]? = some (if armed then risingBeeps else []) := by cases armed <;> rfl

/-- **C101** the last arming beep asked for tells where the switch is, also if messages were lost on the way to the task -/
theorem C101_arming_last (armed : Bool) (msgs : List Bool) (pre : List (List Tone)) (x : List Tone) (h : (beepLoop armed msgs).filter (· ≠ []) = pre ++ [x]) :
    x = if (msgs.getLast?.getD armed) then risingBeeps else fallingBeeps := beeps_last armed msgs pre x h

/-! ### The hypotheses can be met -/

/-- two tones asked for, the second while the first is playing -/
example : (St.new.run [.poll 0, .publish ⟨2000, 700, 300⟩, .poll 5, .publish ⟨3000, 700, 300⟩, .poll 705, .poll 1005, .poll 1006]).played = [(0, ⟨2000, 700, 300⟩, 5), (1, ⟨3000, 700, 300⟩, 1006)] := by decide

example : neverOverfull St.new [.poll 0, .publish ⟨2000, 700, 300⟩, .poll 5, .publish ⟨3000, 700, 300⟩, .poll 705, .poll 1005, .poll 1006] ∧
    clockForward 0 [.poll 0, .publish ⟨2000, 700, 300⟩, .poll 5, .publish ⟨3000, 700, 300⟩, .poll 705, .poll 1005, .poll 1006] := by
  refine ⟨?_, ?_⟩ <;> (simp [neverOverfull, clockForward]; try decide)

end Verif.Props
