import Verif.Model.Vacuum
import Verif.Props.FlightCore
import Verif.Props.PrimaryCore
/-
C102: the log of the vacuum test.
-/
namespace Verif.Props
open Verif Verif.Fc Verif.Vac

/-- the readings of a history, in order -/
def vacReadings {fl : Floats} : List (Vac.Op fl) → List (Reading fl)
  | [] => []
  | .reading r :: l => r :: vacReadings l
  | _ :: l => vacReadings l

/-- what was taken from the channel: the records in the file, and the one being written -/
def vacTaken {fl : Floats} (s : Vac.St fl) : List (Nat × FcState × Nat) :=
  s.log ++ match s.phase with
    | .idle => []
    | .writing k st t => [(k, st, t)]

/-- the times of the polls never go back -/
def vacClock {fl : Floats} : Nat → List (Vac.Op fl) → Prop
  | _, [] => True
  | now, .poll t :: l => now ≤ t ∧ vacClock t l
  | now, _ :: l => vacClock now l

/-- the logging task keeps up: there are never more than three unread events -/
def vacKeepsUp {fl : Floats} (s : Vac.St fl) : List (Vac.Op fl) → Prop
  | [] => s.events.length ≤ s.pos + 3
  | o :: l => s.events.length ≤ s.pos + 3 ∧ vacKeepsUp (s.step o) l

/-- all four state changes of a complete test -/
def fullTest : List FcState := [.armed, .drogueChuteDeployed, .mainChuteDeployed, .landed]

theorem vac_run_snoc {fl : Floats} (s : Vac.St fl) (ops : List (Vac.Op fl)) (o : Vac.Op fl) : s.run (ops ++ [o]) = (s.run ops).step o := by
  simp [Vac.St.run, List.foldl_append]

theorem vacReadings_append {fl : Floats} (a b : List (Vac.Op fl)) : vacReadings (a ++ b) = vacReadings a ++ vacReadings b := by
  induction a with
  | nil => rfl
  | cons o a ih => cases o <;> simp [vacReadings, ih]

/-- fields a poll of the logging task does not touch -/
theorem vac_poll_fields {fl : Floats} (s : Vac.St fl) (t : Nat) : (s.poll t).core = s.core ∧ (s.poll t).ticks = s.ticks ∧ (s.poll t).events = s.events ∧ (s.poll t).log = s.log ∧ (s.poll t).panicked = s.panicked := by
  unfold Vac.St.poll
  split
  · exact ⟨rfl, rfl, rfl, rfl, rfl⟩
  · simp only []
    split <;> exact ⟨rfl, rfl, rfl, rfl, rfl⟩

theorem vac_wrote_fields {fl : Floats} (s : Vac.St fl) (ok : Bool) : (s.wrote ok).core = s.core ∧ (s.wrote ok).ticks = s.ticks ∧ (s.wrote ok).events = s.events ∧ (s.wrote ok).pos = s.pos := by
  unfold Vac.St.wrote
  split
  · exact ⟨rfl, rfl, rfl, rfl⟩
  · split <;> exact ⟨rfl, rfl, rfl, rfl⟩

/-- the flight computer sees the readings, one after the other -/
theorem vac_core {fl : Floats} (f : Flight fl) (ops : List (Vac.Op fl)) (hr : ∀ i x, (vacReadings ops)[i]? = some x → x = f.r i) :
    let s := (Vac.St.new f.q f.p).run ops
    s.ticks ≤ (vacReadings ops).length ∧ (s.panicked = false → s.ticks = (vacReadings ops).length) ∧ (Backup.new f.q f.p).after f.r s.ticks = some (s.core, s.events) := by
  obtain ⟨l, rfl⟩ : ∃ l, ops = List.reverse l := ⟨ops.reverse, by simp⟩
  induction l with
  | nil => exact ⟨Nat.le_refl _, fun _ => rfl, rfl⟩
  | cons o l ih =>
    rw [List.reverse_cons] at hr ⊢
    rw [vac_run_snoc, vacReadings_append] at *
    obtain ⟨h1, h2, h3⟩ := ih (fun i x hx => hr i x (by rw [List.getElem?_append_left (List.getElem?_eq_some_iff.mp hx).1]; exact hx))
    generalize hs : (Vac.St.new f.q f.p).run l.reverse = s at h1 h2 h3 ⊢
    unfold Vac.St.step
    by_cases hp : s.panicked = true
    · rw [if_pos hp]; exact ⟨by rw [List.length_append]; omega, fun h => absurd h (by rw [hp]; simp), h3⟩
    · rw [if_neg hp]
      have h2 := h2 (by simpa using hp)
      cases o with
      | reading r =>
        have hx : r = f.r s.ticks := hr s.ticks r (by rw [List.getElem?_append_right (by omega), h2]; simp [vacReadings])
        obtain ⟨b, evs, e1, _⟩ := backup_after f (s.ticks + 1)
        rw [Backup.after, h3] at e1
        simp only [Option.bind_some] at e1
        cases ht : s.core.tick (f.r s.ticks) with
        | none => rw [ht] at e1; cases e1
        | some q =>
          obtain ⟨c, ev⟩ := q
          have e : s.reading r = { s with core := c, ticks := s.ticks + 1, events := s.events ++ ev.map fun e => (s.ticks, e) } := by
            unfold Vac.St.reading; rw [hx, ht]
          show (s.reading r).ticks ≤ _ ∧ ((s.reading r).panicked = false → (s.reading r).ticks = _) ∧ (Backup.new f.q f.p).after f.r (s.reading r).ticks = some ((s.reading r).core, (s.reading r).events)
          rw [e]
          refine ⟨by simp [vacReadings]; omega, fun _ => by simp [vacReadings]; omega, ?_⟩
          show (Backup.new f.q f.p).after f.r (s.ticks + 1) = _
          rw [Backup.after, h3]
          simp only [Option.bind_some, ht, Option.map_some]
      | readError => exact ⟨by simpa [vacReadings] using h1, fun h => absurd h (by simp), h3⟩
      | poll t =>
        obtain ⟨a, b, c, _, d⟩ := vac_poll_fields s t
        show (s.poll t).ticks ≤ _ ∧ ((s.poll t).panicked = false → (s.poll t).ticks = _) ∧ (Backup.new f.q f.p).after f.r (s.poll t).ticks = some ((s.poll t).core, (s.poll t).events)
        rw [a, b, c]
        exact ⟨by simpa [vacReadings] using h1, fun _ => by simpa [vacReadings] using h2, h3⟩
      | wrote ok =>
        obtain ⟨a, b, c, _⟩ := vac_wrote_fields s ok
        show (s.wrote ok).ticks ≤ _ ∧ ((s.wrote ok).panicked = false → (s.wrote ok).ticks = _) ∧ (Backup.new f.q f.p).after f.r (s.wrote ok).ticks = some ((s.wrote ok).core, (s.wrote ok).events)
        rw [a, b, c]
        exact ⟨by simpa [vacReadings] using h1, fun _ => by simpa [vacReadings] using h2, h3⟩

/-- what holds of every reachable state -/
structure VacInv {fl : Floats} (s : Vac.St fl) (now : Nat) : Prop where
  pos : s.pos ≤ s.events.length
  sub : ((vacTaken s).map fun x => x.2.1).Sublist ((announced (s.events.take s.pos)).map Prod.snd)
  idx : ∀ x ∈ vacTaken s, x.1 < s.pos
  evt : ∀ x ∈ vacTaken s, ∃ i, s.events[x.1]? = some (i, .changeState x.2.1)
  time : ∀ x ∈ vacTaken s, x.2.2 ≤ now
  mono : (vacTaken s).Pairwise fun a b => a.1 < b.1 ∧ a.2.2 ≤ b.2.2
  last : s.signal = (vacTaken s).getLast?.map fun x => x.2.1
  beep : s.beeps = ((vacTaken s).filter fun x => x.2.1 = .mainChuteDeployed ∨ x.2.1 = .drogueChuteDeployed).length

theorem vac_inv_new {fl : Floats} (q : Biquad fl) (p : Profile fl) : VacInv (Vac.St.new q p) 0 :=
  ⟨Nat.le_refl _, List.Sublist.slnil, (by intro x hx; cases hx), (by intro x hx; cases hx), (by intro x hx; cases hx), List.Pairwise.nil, rfl, rfl⟩

theorem vac_take_succ {α : Type} (l : List α) (p k : Nat) (h : p ≤ k) (x : α) (hx : l[k]? = some x) : ∃ m, l.take (k + 1) = l.take p ++ m ++ [x] := by
  refine ⟨(l.drop p).take (k - p), ?_⟩
  rw [List.take_succ_eq_append_getElem (List.getElem?_eq_some_iff.mp hx).1, (List.getElem?_eq_some_iff.mp hx).2]
  congr 1
  rw [← List.take_add]
  congr 1; omega

theorem vac_inv_step {fl : Floats} (s : Vac.St fl) (now : Nat) (o : Vac.Op fl) (h : VacInv s now) (hc : ∀ t, o = .poll t → now ≤ t) :
    VacInv (s.step o) (match o with | .poll t => t | _ => now) := by
  have later : ∀ now', now ≤ now' → VacInv s now' := fun n hn => ⟨h.pos, h.sub, h.idx, h.evt, fun x hx => Nat.le_trans (h.time x hx) hn, h.mono, h.last, h.beep⟩
  unfold Vac.St.step
  by_cases hp : s.panicked = true
  · rw [if_pos hp]
    apply later
    cases o with
    | poll t => exact hc t rfl
    | _ => exact Nat.le_refl _
  · rw [if_neg hp]
    cases o with
    | reading r =>
      show VacInv (s.reading r) now
      unfold Vac.St.reading
      split
      · exact ⟨h.pos, h.sub, h.idx, h.evt, h.time, h.mono, h.last, h.beep⟩
      · refine ⟨?_, ?_, h.idx, ?_, h.time, h.mono, h.last, h.beep⟩
        · show s.pos ≤ (s.events ++ _).length
          rw [List.length_append]; have := h.pos; omega
        · show List.Sublist _ ((announced ((s.events ++ _).take s.pos)).map Prod.snd)
          rw [List.take_append_of_le_length h.pos]; exact h.sub
        · intro x hx
          obtain ⟨i, hi⟩ := h.evt x hx
          refine ⟨i, ?_⟩
          show (s.events ++ _)[x.1]? = _
          rw [List.getElem?_append_left (List.getElem?_eq_some_iff.mp hi).1]; exact hi
    | readError => exact ⟨h.pos, h.sub, h.idx, h.evt, h.time, h.mono, h.last, h.beep⟩
    | poll t =>
      show VacInv (s.poll t) t
      have hc := hc t rfl
      unfold Vac.St.poll
      split
      · exact later _ (by omega)
      · rename_i hi
        simp only []
        have hk : s.pos ≤ PubSub.next 3 s.events s.pos := by unfold PubSub.next; omega
        have htk : vacTaken s = s.log := by unfold vacTaken; rw [hi]; simp
        split
        · exact later _ (by omega)
        · rename_i i st he
          obtain ⟨m, hm⟩ := vac_take_succ _ _ _ hk _ he
          have hlen := (List.getElem?_eq_some_iff.mp he).1
          have ht' : vacTaken { s with pos := PubSub.next 3 s.events s.pos + 1, phase := .writing (PubSub.next 3 s.events s.pos) st t, signal := some st, beeps := if beepFor st then s.beeps + 1 else s.beeps } = s.log ++ [(PubSub.next 3 s.events s.pos, st, t)] := rfl
          refine ⟨hlen, ?_, ?_, ?_, ?_, ?_, ?_, ?_⟩
          · rw [ht', List.map_append]
            show List.Sublist _ ((announced (s.events.take (PubSub.next 3 s.events s.pos + 1))).map Prod.snd)
            rw [hm, announced_append, announced_append, List.map_append, List.map_append]
            have := h.sub
            rw [htk] at this
            exact (this.trans (List.sublist_append_left _ _)).append (List.Sublist.refl _)
          · rw [ht']
            intro x hx
            show x.1 < PubSub.next 3 s.events s.pos + 1
            rcases List.mem_append.mp hx with hx | hx
            · have := h.idx x (by rw [htk]; exact hx); omega
            · rw [List.mem_singleton.mp hx]; exact Nat.lt_succ_self _
          · rw [ht']
            intro x hx
            rcases List.mem_append.mp hx with hx | hx
            · exact h.evt x (by rw [htk]; exact hx)
            · rw [List.mem_singleton.mp hx]; exact ⟨i, he⟩
          · rw [ht']
            intro x hx
            rcases List.mem_append.mp hx with hx | hx
            · have := h.time x (by rw [htk]; exact hx); omega
            · rw [List.mem_singleton.mp hx]; exact Nat.le_refl _
          · rw [ht', List.pairwise_append]
            refine ⟨htk ▸ h.mono, List.pairwise_singleton _ _, ?_⟩
            intro a ha b hb
            rw [List.mem_singleton.mp hb]
            have h1 := h.idx a (by rw [htk]; exact ha)
            have h2 := h.time a (by rw [htk]; exact ha)
            exact ⟨by show a.1 < PubSub.next 3 s.events s.pos; omega, by show a.2.2 ≤ t; omega⟩
          · rw [ht']; simp
          · rw [ht', List.filter_append, List.length_append]
            show (if beepFor st then s.beeps + 1 else s.beeps) = _
            rw [h.beep, htk]
            cases st <;> simp [beepFor]
        · rename_i x _ he
          have hlen : PubSub.next 3 s.events s.pos < s.events.length := (List.getElem?_eq_some_iff.mp he).1
          obtain ⟨m, hm⟩ := vac_take_succ _ _ _ hk _ he
          refine ⟨hlen, ?_, ?_, h.evt, (later _ (by omega)).time, h.mono, h.last, h.beep⟩
          · show List.Sublist _ ((announced (s.events.take (PubSub.next 3 s.events s.pos + 1))).map Prod.snd)
            rw [hm, List.append_assoc, announced_append, List.map_append]
            exact h.sub.trans (List.sublist_append_left _ _)
          · intro y hy
            have := h.idx y hy
            show y.1 < PubSub.next 3 s.events s.pos + 1
            omega
    | wrote ok =>
      show VacInv (s.wrote ok) now
      unfold Vac.St.wrote
      split
      · exact h
      · rename_i k st t hw
        have htk : vacTaken s = s.log ++ [(k, st, t)] := by unfold vacTaken; rw [hw]
        split
        · have ht' : vacTaken { s with phase := .idle, log := s.log ++ [(k, st, t)] } = vacTaken s := by rw [htk]; unfold vacTaken; simp
          refine ⟨h.pos, ?_, ?_, ?_, ?_, ?_, ?_, ?_⟩ <;> rw [ht']
          · exact h.sub
          · exact h.idx
          · exact h.evt
          · exact h.time
          · exact h.mono
          · exact h.last
          · exact h.beep
        · exact ⟨h.pos, h.sub, h.idx, h.evt, h.time, h.mono, h.last, h.beep⟩

theorem vac_inv_run {fl : Floats} : ∀ (ops : List (Vac.Op fl)) (s : Vac.St fl) (now : Nat), VacInv s now → vacClock now ops → ∃ now', VacInv (s.run ops) now' := by
  intro ops
  induction ops with
  | nil => exact fun s now h _ => ⟨now, h⟩
  | cons o ops ih =>
    intro s now h hc
    cases o with
    | poll t => exact ih _ t (vac_inv_step s now (.poll t) h (by intro u hu; cases hu; exact hc.1)) hc.2
    | reading r => exact ih _ now (vac_inv_step s now (.reading r) h (by intro u hu; cases hu)) hc
    | readError => exact ih _ now (vac_inv_step s now .readError h (by intro u hu; cases hu)) hc
    | wrote ok => exact ih _ now (vac_inv_step s now (.wrote ok) h (by intro u hu; cases hu)) hc

theorem vac_log_taken {fl : Floats} (s : Vac.St fl) : s.log.Sublist (vacTaken s) := List.sublist_append_left _ _

/-- C102: whatever the readings, the scheduling and the failures: the test never crashes because of the readings; what the flight computer announced is what C42 says of the readings that arrived;
the states in the file are a selection, in order and without repetition, of armed, drogue, main, landed; every record is of a state the flight computer announced, with timestamps that never go back -/
theorem C102_order {fl : Floats} (f : Flight fl) (ops : List (Vac.Op fl)) (hr : ∀ i x, (vacReadings ops)[i]? = some x → x = f.r i) (hc : vacClock 0 ops) :
    let s := (Vac.St.new f.q f.p).run ops
    (s.panicked = false → s.ticks = (vacReadings ops).length) ∧
    Timeline f s.ticks (announced s.events) ∧
    (s.log.map fun x => x.2.1).Sublist ((announced s.events).map Prod.snd) ∧
    (s.log.map fun x => x.2.1).Sublist fullTest ∧
    (∀ x ∈ s.log, ∃ i, s.events[x.1]? = some (i, .changeState x.2.1)) ∧
    s.log.Pairwise fun a b => a.1 < b.1 ∧ a.2.2 ≤ b.2.2 := by
  intro s
  obtain ⟨_, h2, h3⟩ := vac_core f ops hr
  obtain ⟨now, h⟩ := vac_inv_run ops _ 0 (vac_inv_new f.q f.p) hc
  obtain ⟨b', evs', e1, e2⟩ := C42_timeline f s.ticks
  have h3' : (Backup.new f.q f.p).after f.r s.ticks = some (s.core, s.events) := h3
  rw [h3'] at e1
  obtain ⟨rfl, rfl⟩ := Prod.mk.inj (Option.some.inj e1)
  have hsub : (s.log.map fun x => x.2.1).Sublist ((announced s.events).map Prod.snd) := by
    refine ((vac_log_taken s).map _).trans (h.sub.trans ?_)
    conv => rhs; rw [← List.take_append_drop s.pos s.events, announced_append, List.map_append]
    exact List.sublist_append_left _ _
  refine ⟨h2, e2, hsub, hsub.trans (C41_order f.q f.p f.r s.ticks h3').1.sublist, ?_, h.mono.sublist (vac_log_taken s)⟩
  exact fun x hx => h.evt x ((vac_log_taken s).subset hx)

theorem vac_keeps_head {fl : Floats} (s : Vac.St fl) (ops : List (Vac.Op fl)) (h : vacKeepsUp s ops) : s.events.length ≤ s.pos + 3 := by
  cases ops with
  | nil => exact h
  | cons o l => exact h.1

/-- one step of a task that keeps up -/
theorem vac_all_step {fl : Floats} (s : Vac.St fl) (o : Vac.Op fl) (h3 : s.events.length ≤ s.pos + 3) (hp : s.pos ≤ s.events.length)
    (h : (vacTaken s).map (fun x => x.2.1) = (announced (s.events.take s.pos)).map Prod.snd) :
    (s.step o).pos ≤ (s.step o).events.length ∧ (vacTaken (s.step o)).map (fun x => x.2.1) = (announced ((s.step o).events.take (s.step o).pos)).map Prod.snd := by
  unfold Vac.St.step
  split
  · exact ⟨hp, h⟩
  · cases o with
    | reading r =>
      show (s.reading r).pos ≤ (s.reading r).events.length ∧ (vacTaken (s.reading r)).map (fun x => x.2.1) = (announced ((s.reading r).events.take (s.reading r).pos)).map Prod.snd
      unfold Vac.St.reading
      split
      · exact ⟨hp, h⟩
      · refine ⟨by show s.pos ≤ (s.events ++ _).length; rw [List.length_append]; omega, ?_⟩
        show (vacTaken s).map (fun x => x.2.1) = (announced ((s.events ++ _).take s.pos)).map Prod.snd
        rw [List.take_append_of_le_length hp]; exact h
    | readError => exact ⟨hp, h⟩
    | poll t =>
      show (s.poll t).pos ≤ (s.poll t).events.length ∧ (vacTaken (s.poll t)).map (fun x => x.2.1) = (announced ((s.poll t).events.take (s.poll t).pos)).map Prod.snd
      unfold Vac.St.poll
      have hk : PubSub.next 3 s.events s.pos = s.pos := by unfold PubSub.next; omega
      split
      · exact ⟨hp, h⟩
      · rename_i hi
        have htk : vacTaken s = s.log := by unfold vacTaken; rw [hi]; simp
        rw [hk]
        simp only []
        split
        · exact ⟨hp, h⟩
        · rename_i i st he
          have hlen := (List.getElem?_eq_some_iff.mp he).1
          refine ⟨hlen, ?_⟩
          show (s.log ++ [(s.pos, st, t)]).map (fun x => x.2.1) = (announced (s.events.take (s.pos + 1))).map Prod.snd
          rw [List.take_succ_eq_append_getElem hlen, (List.getElem?_eq_some_iff.mp he).2, announced_append, List.map_append, List.map_append, ← h, htk]
          rfl
        · rename_i x hx he
          have hlen := (List.getElem?_eq_some_iff.mp he).1
          refine ⟨hlen, ?_⟩
          show (vacTaken s).map (fun x => x.2.1) = (announced (s.events.take (s.pos + 1))).map Prod.snd
          rw [List.take_succ_eq_append_getElem hlen, (List.getElem?_eq_some_iff.mp he).2, announced_append, List.map_append, ← h]
          obtain ⟨i, e⟩ := x
          cases e <;> first | (exact absurd rfl (hx _ _)) | simp [announced]
    | wrote ok =>
      obtain ⟨_, _, c, d⟩ := vac_wrote_fields s ok
      show (s.wrote ok).pos ≤ (s.wrote ok).events.length ∧ (vacTaken (s.wrote ok)).map (fun x => x.2.1) = (announced ((s.wrote ok).events.take (s.wrote ok).pos)).map Prod.snd
      rw [c, d]
      refine ⟨hp, ?_⟩
      rw [← h]
      congr 1
      unfold Vac.St.wrote
      split
      · rfl
      · rename_i k st t hw
        split
        · unfold vacTaken; rw [hw]; simp
        · rfl

theorem vac_all_run {fl : Floats} : ∀ (ops : List (Vac.Op fl)) (s : Vac.St fl), vacKeepsUp s ops → s.pos ≤ s.events.length →
    (vacTaken s).map (fun x => x.2.1) = (announced (s.events.take s.pos)).map Prod.snd →
    (vacTaken (s.run ops)).map (fun x => x.2.1) = (announced ((s.run ops).events.take (s.run ops).pos)).map Prod.snd := by
  intro ops
  induction ops with
  | nil => exact fun s _ _ h => h
  | cons o ops ih =>
    intro s hk hp h
    obtain ⟨a, b⟩ := vac_all_step s o hk.1 hp h
    exact ih _ hk.2 a b

/-- C102: as long as the logging task keeps up – never more than three events unread – nothing is lost: once it has read everything and is not writing, the states in the file are all the
states the flight computer announced -/
theorem C102_complete {fl : Floats} (q : Biquad fl) (p : Profile fl) (ops : List (Vac.Op fl)) (hk : vacKeepsUp (Vac.St.new q p) ops) :
    let s := (Vac.St.new q p).run ops
    s.phase = .idle → s.events.length ≤ s.pos → (s.log.map fun x => x.2.1) = (announced s.events).map Prod.snd := by
  intro s hi hl
  have h := vac_all_run ops (Vac.St.new q p) hk (Nat.le_refl _) rfl
  have htk : vacTaken s = s.log := by unfold vacTaken; rw [hi]; simp
  have h' : (vacTaken s).map (fun x => x.2.1) = (announced (s.events.take s.pos)).map Prod.snd := h
  rw [htk, List.take_of_length_le hl] at h'
  exact h'

/-- an idle task that is not behind takes an announced state, and has it in the file after a successful write -/
theorem C102_progress {fl : Floats} (s : Vac.St fl) (t i : Nat) (st : FcState) (hp : s.panicked = false) (hi : s.phase = .idle) (h3 : s.events.length ≤ s.pos + 3)
    (he : s.events[s.pos]? = some (i, .changeState st)) :
    (s.run [.poll t, .wrote true]).log = s.log ++ [(s.pos, st, t)] ∧ (s.run [.poll t, .wrote true]).pos = s.pos + 1 := by
  have hk : PubSub.next 3 s.events s.pos = s.pos := by unfold PubSub.next; omega
  have e1 : s.step (.poll t) = { s with pos := s.pos + 1, phase := .writing s.pos st t, signal := some st, beeps := if beepFor st then s.beeps + 1 else s.beeps } := by
    unfold Vac.St.step
    rw [if_neg (by rw [hp]; simp)]
    show s.poll t = _
    unfold Vac.St.poll
    simp only [hi, hk, he]
  show ((s.step (.poll t)).step (.wrote true)).log = _ ∧ ((s.step (.poll t)).step (.wrote true)).pos = _
  rw [e1]
  unfold Vac.St.step
  rw [if_neg (by show ¬ s.panicked = true; rw [hp]; simp)]
  exact ⟨rfl, rfl⟩

/-- message `m` will never be in the file -/
def vacLost {fl : Floats} (s : Vac.St fl) (m : Nat) : Prop := m < PubSub.next 3 s.events s.pos ∧ ∀ x ∈ vacTaken s, x.1 ≠ m

theorem vac_lost_step {fl : Floats} (s : Vac.St fl) (o : Vac.Op fl) (m : Nat) (h : vacLost s m) : vacLost (s.step o) m := by
  obtain ⟨h1, h2⟩ := h
  unfold PubSub.next at h1
  unfold Vac.St.step
  split
  · exact ⟨h1, h2⟩
  · cases o with
    | reading r =>
      show vacLost (s.reading r) m
      unfold Vac.St.reading
      split
      · exact ⟨h1, h2⟩
      · refine ⟨?_, h2⟩
        show m < max s.pos ((s.events ++ _).length - 3)
        rw [List.length_append]; omega
    | readError => exact ⟨h1, h2⟩
    | poll t =>
      show vacLost (s.poll t) m
      unfold Vac.St.poll
      split
      · exact ⟨h1, h2⟩
      · rename_i hi
        have htk : vacTaken s = s.log := by unfold vacTaken; rw [hi]; simp
        simp only []
        split
        · exact ⟨h1, h2⟩
        · refine ⟨?_, ?_⟩
          · show m < max (PubSub.next 3 s.events s.pos + 1) (s.events.length - 3)
            unfold PubSub.next; omega
          · intro x hx
            rcases List.mem_append.mp hx with hx | hx
            · exact h2 x (by rw [htk]; exact hx)
            · rw [List.mem_singleton.mp hx]
              show PubSub.next 3 s.events s.pos ≠ m
              unfold PubSub.next; omega
        · refine ⟨?_, h2⟩
          show m < max (PubSub.next 3 s.events s.pos + 1) (s.events.length - 3)
          unfold PubSub.next; omega
    | wrote ok =>
      show vacLost (s.wrote ok) m
      unfold Vac.St.wrote
      split
      · exact ⟨h1, h2⟩
      · rename_i k st t hw
        have htk : vacTaken s = s.log ++ [(k, st, t)] := by unfold vacTaken; rw [hw]
        split
        · refine ⟨h1, ?_⟩
          intro x hx
          refine h2 x ?_
          rw [htk]
          simpa [vacTaken] using hx
        · exact ⟨h1, h2⟩

theorem vac_lost_run {fl : Floats} (ops : List (Vac.Op fl)) : ∀ (s : Vac.St fl) (m : Nat), vacLost s m → vacLost (s.run ops) m := by
  induction ops with
  | nil => exact fun s m h => h
  | cons o ops ih => exact fun s m h => ih _ m (vac_lost_step s o m h)

/-- readings publish: every one at least its speed -/
theorem vac_readings_events {fl : Floats} : ∀ (l : List (Reading fl)) (s : Vac.St fl), (s.run (l.map .reading)).panicked = false →
    s.events.length + l.length ≤ (s.run (l.map .reading)).events.length ∧ (s.run (l.map .reading)).pos = s.pos ∧ vacTaken (s.run (l.map .reading)) = vacTaken s := by
  intro l
  induction l with
  | nil => exact fun s _ => ⟨Nat.le_refl _, rfl, rfl⟩
  | cons r l ih =>
    intro s hp
    obtain ⟨a, b, c⟩ := ih (s.step (.reading r)) hp
    have key : s.events.length + 1 ≤ (s.step (.reading r)).events.length ∧ (s.step (.reading r)).pos = s.pos ∧ vacTaken (s.step (.reading r)) = vacTaken s ∨ (s.step (.reading r)).panicked = true := by
      unfold Vac.St.step
      split
      · rename_i h; exact .inr h
      · show s.events.length + 1 ≤ (s.reading r).events.length ∧ (s.reading r).pos = s.pos ∧ vacTaken (s.reading r) = vacTaken s ∨ (s.reading r).panicked = true
        unfold Vac.St.reading
        split
        · exact .inr rfl
        · rename_i cc evs he
          refine .inl ⟨?_, rfl, rfl⟩
          show s.events.length + 1 ≤ (s.events ++ _).length
          unfold Backup.tick at he
          obtain ⟨pp, _, h2⟩ := Option.map_eq_some_iff.mp he
          rw [← (Prod.mk.inj h2).2]
          simp only [List.length_append, List.length_map, List.length_cons]; omega
    rcases key with ⟨k1, k2, k3⟩ | k
    · have e : s.run ((r :: l).map .reading) = (s.step (.reading r)).run (l.map .reading) := rfl
      rw [e, b, c, k2, k3]
      refine ⟨?_, rfl, rfl⟩
      rw [List.length_cons]; omega
    · exfalso
      have : ∀ (ops : List (Vac.Op fl)) (s : Vac.St fl), s.panicked = true → (s.run ops).panicked = true := by
        intro ops
        induction ops with
        | nil => exact fun _ h => h
        | cons o ops ih =>
          intro s h
          refine ih _ ?_
          unfold Vac.St.step; rw [if_pos h]; exact h
      have e : s.run ((r :: l).map .reading) = (s.step (.reading r)).run (l.map .reading) := rfl
      rw [e, this _ _ k] at hp
      cases hp

/-- C102 (finding): the channel holds three events and every reading publishes one (its speed). An announced state the logging task has not taken yet is lost for ever when three readings – 15 ms –
arrive while the task is busy writing, and the file then has no record of it, whatever happens later -/
theorem C102_slow {fl : Floats} (q : Biquad fl) (p : Profile fl) (ops : List (Vac.Op fl)) (hc : vacClock 0 ops) (m : Nat) (l : List (Reading fl)) (rest : List (Vac.Op fl))
    (h1 : ((Vac.St.new q p).run ops).pos ≤ m) (h2 : m < ((Vac.St.new q p).run ops).events.length) (h3 : 3 ≤ l.length)
    (hp : (((Vac.St.new q p).run ops).run (l.map .reading)).panicked = false) :
    ∀ x ∈ ((((Vac.St.new q p).run ops).run (l.map .reading)).run rest).log, x.1 ≠ m := by
  obtain ⟨now, h⟩ := vac_inv_run ops _ 0 (vac_inv_new q p) hc
  generalize (Vac.St.new q p).run ops = s at *
  obtain ⟨a, b, c⟩ := vac_readings_events l s hp
  have hl : vacLost (s.run (l.map .reading)) m := by
    refine ⟨?_, ?_⟩
    · unfold PubSub.next; omega
    · rw [c]; intro x hx; have := h.idx x hx; omega
  exact fun x hx => (vac_lost_run rest _ m hl).2 x ((vac_log_taken _).subset hx)

/-- C102: one failed reading or one failed write ends the test: nothing is read, announced or logged after it -/
theorem C102_panic {fl : Floats} (s : Vac.St fl) (o : Vac.Op fl) (ho : o = .readError ∨ (o = .wrote false ∧ s.phase ≠ .idle)) (ops : List (Vac.Op fl)) :
    ((s.step o).run ops).log = s.log ∧ ((s.step o).run ops).events = s.events ∧ ((s.step o).run ops).signal = s.signal := by
  have dead : ∀ (ops : List (Vac.Op fl)) (s : Vac.St fl), s.panicked = true → s.run ops = s := by
    intro ops
    induction ops with
    | nil => exact fun _ _ => rfl
    | cons o ops ih =>
      intro s h
      have e : s.step o = s := by unfold Vac.St.step; rw [if_pos h]
      show (s.step o).run ops = s
      rw [e]; exact ih s h
  by_cases hp : s.panicked = true
  · have e : s.step o = s := by unfold Vac.St.step; rw [if_pos hp]
    rw [e, dead ops s hp]
    exact ⟨rfl, rfl, rfl⟩
  · have : (s.step o).panicked = true ∧ (s.step o).log = s.log ∧ (s.step o).events = s.events ∧ (s.step o).signal = s.signal := by
      unfold Vac.St.step
      rw [if_neg hp]
      rcases ho with rfl | ⟨rfl, hi⟩
      · exact ⟨rfl, rfl, rfl, rfl⟩
      · show (s.wrote false).panicked = true ∧ (s.wrote false).log = s.log ∧ (s.wrote false).events = s.events ∧ (s.wrote false).signal = s.signal
        unfold Vac.St.wrote
        split
        · rename_i h; exact absurd h hi
        · exact ⟨rfl, rfl, rfl, rfl⟩
    rw [dead ops _ this.1]
    exact this.2

/-- C102: the indicator shows the last state the logging task took, and it beeped once for every deployment it took -/
theorem C102_signal {fl : Floats} (q : Biquad fl) (p : Profile fl) (ops : List (Vac.Op fl)) (hc : vacClock 0 ops) :
    let s := (Vac.St.new q p).run ops
    s.signal = ((vacTaken s).getLast?.map fun x => x.2.1) ∧
    s.beeps = ((vacTaken s).filter fun x => x.2.1 = .mainChuteDeployed ∨ x.2.1 = .drogueChuteDeployed).length := by
  obtain ⟨now, h⟩ := vac_inv_run ops _ 0 (vac_inv_new q p) hc
  exact ⟨h.last, h.beep⟩

/-- a reading on the ground -/
def vacGround (t : Nat) : Reading ratFloats := ⟨(t : Rat), (100 : Rat)⟩

/-- a task that keeps up logs the arming -/
example : vacKeepsUp (Vac.St.new demoBiquad demoProfile) [.reading (vacGround 0), .poll 1, .poll 1, .wrote true, .reading (vacGround 5), .poll 6] ∧
    ((Vac.St.new demoBiquad demoProfile).run [.reading (vacGround 0), .poll 1, .poll 1, .wrote true, .reading (vacGround 5), .poll 6]).log = [(1, .armed, 1)] := by
  refine ⟨?_, by decide +kernel⟩
  unfold vacKeepsUp
  refine ⟨by decide +kernel, ?_⟩
  repeat (unfold vacKeepsUp; refine ⟨by decide +kernel, ?_⟩)
  unfold vacKeepsUp
  decide +kernel

/-- a slow one does not: the arming is message 1, it has read message 0, three more readings come -/
example : ((Vac.St.new demoBiquad demoProfile).run [.reading (vacGround 0), .poll 1]).pos = 1 ∧ ((Vac.St.new demoBiquad demoProfile).run [.reading (vacGround 0), .poll 1]).events.length = 2 ∧
    (((Vac.St.new demoBiquad demoProfile).run [.reading (vacGround 0), .poll 1]).run ([vacGround 5, vacGround 10, vacGround 15].map .reading)).panicked = false ∧
    ((Vac.St.new demoBiquad demoProfile).run [.reading (vacGround 0), .poll 1, .reading (vacGround 5), .reading (vacGround 10), .reading (vacGround 15), .poll 16, .poll 16, .poll 16]).log = [] := by
  refine ⟨by decide +kernel, by decide +kernel, by decide +kernel, by decide +kernel⟩

end Verif.Props
