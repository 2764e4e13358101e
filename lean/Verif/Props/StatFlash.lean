import Verif.Spec.StatFlash
/-
C123: the flash driver with statistics.
-/
namespace Verif.Props
open Verif Verif.StatFlash Verif.Spec

variable {ω ρ τ α ε : Type}

theorem stat_call_eq (t : Times τ) (d : Driver ω ρ τ) (s : Stat τ) (c : Call) (w : ω) : ∃ s', statCall t d s c w = ((d.call c w).1, s', (d.call c w).2) := by
  cases c <;> exact ⟨_, rfl⟩

/-- **C123** Whatever a program does with the flash, and however it reacts to what it sees: on the driver with statistics it gets the same results and leaves the chip (and the clock, and everything else) in the
same state as on the driver itself. -/
theorem C123_transparent (t : Times τ) (d : Driver ω ρ τ) (p : Prog ρ α) (s : Stat τ) (w : ω) :
    ((p.runStat t d s w).1, (p.runStat t d s w).2.2) = p.run d w := by
  induction p generalizing s w with
  | done a => rfl
  | call c k ih =>
    obtain ⟨s', h⟩ := stat_call_eq t d s c w
    unfold Prog.runStat Prog.run
    rw [h]
    exact ih _ s' _

theorem runStat_call {t : Times τ} {d : Driver ω ρ τ} {c : Call} {k : ρ → Prog ρ α} {s s' : Stat τ} {w w' : ω} {r : ρ} (h : statCall t d s c w = (r, s', w')) :
    (Prog.call c k).runStat t d s w = (k r).runStat t d s' w' := by
  rw [Prog.runStat, h]

theorem stat_read {t : Times τ} {d : Driver ω ρ τ} {a n : Nat} {b : Bytes} {s : Stat τ} {w w' : ω} {r : ρ} (h : d.call (.read4k a n b) w = (r, w')) :
    statCall t d s (.read4k a n b) w = (r, s.addRead4k t (d.now w) (d.now w'), w') := by
  simp only [statCall, runWithStat, h]

theorem stat_write {t : Times τ} {d : Driver ω ρ τ} {a : Nat} {b : Bytes} {s : Stat τ} {w w' : ω} {r : ρ} (h : d.call (.write256 a b) w = (r, w')) :
    statCall t d s (.write256 a b) w = (r, s.addWrite256 t (d.now w) (d.now w'), w') := by
  simp only [statCall, runWithStat, h]

theorem callsSince_append (k : FlashKind) (l m : List (FlashEvent τ)) (acc : List (τ × τ)) : callsSince k (l ++ m) acc = callsSince k m (callsSince k l acc) := by
  induction l generalizing acc with
  | nil => rfl
  | cons e l ih => cases e <;> exact ih _

theorem totalTime_snoc (t : Times τ) (l : List (τ × τ)) (a b : τ) : totalTime t (l ++ [(a, b)]) = t.add (totalTime t l) (t.sub b a) := by
  unfold totalTime; rw [List.foldl_append]; rfl

/-- **C123** The statistics at any time: for each of the five kinds of operations the number of calls since the statistics were last cleared, failed ones included, and the sum of the times they took, in order.
The other calls (size, reset) are not counted. -/
theorem C123_statistics {t : Times τ} {w : ω} {s : Stat τ} {l : List (FlashEvent τ)} (h : StatRun (ρ := ρ) t w s l) :
    (s.erase4Count = (callsSince .erase4 l []).length ∧ s.erase4Time = totalTime t (callsSince .erase4 l [])) ∧
    (s.erase32Count = (callsSince .erase32 l []).length ∧ s.erase32Time = totalTime t (callsSince .erase32 l [])) ∧
    (s.erase64Count = (callsSince .erase64 l []).length ∧ s.erase64Time = totalTime t (callsSince .erase64 l [])) ∧
    (s.read4kCount = (callsSince .read l []).length ∧ s.read4kTime = totalTime t (callsSince .read l [])) ∧
    (s.write256Count = (callsSince .write l []).length ∧ s.write256Time = totalTime t (callsSince .write l [])) := by
  induction h with
  | new w => exact ⟨⟨rfl, rfl⟩, ⟨rfl, rfl⟩, ⟨rfl, rfl⟩, ⟨rfl, rfl⟩, ⟨rfl, rfl⟩⟩
  | clear h ih =>
    simp only [callsSince_append]
    exact ⟨⟨rfl, rfl⟩, ⟨rfl, rfl⟩, ⟨rfl, rfl⟩, ⟨rfl, rfl⟩, ⟨rfl, rfl⟩⟩
  | world h ih => exact ih
  | call d c h hc ih =>
    simp only [callsSince_append]
    obtain ⟨⟨a1, a2⟩, ⟨b1, b2⟩, ⟨c1, c2⟩, ⟨d1, d2⟩, ⟨e1, e2⟩⟩ := ih
    cases c <;> (
      injection hc with _ hc
      injection hc with hs hw
      subst hs hw
      simp [callsSince, kindOf, Stat.addErase4, Stat.addErase32, Stat.addErase64, Stat.addRead4k, Stat.addWrite256, totalTime_snoc, a1, a2, b1, b2, c1, c2, d1, d2, e1, e2])

/-- **C123** `read` of `len` bytes through the driver with statistics counts one `read_4kib` for every begun 4096 bytes if it succeeds, at most so many if it fails, and nothing else. -/
theorem C123_read_counted (t : Times τ) (d : Driver ω (Except ε Bytes) τ) (addr len : Nat) (buf : Bytes) (s : Stat τ) (w : ω) :
    let x := (readProg (ε := ε) addr len 0 buf).runStat t d s w
    ((∃ b, x.1 = .ok b) → x.2.1.read4kCount = s.read4kCount + (len + 4095) / 4096) ∧ x.2.1.read4kCount ≤ s.read4kCount + (len + 4095) / 4096 ∧
      x.2.1.write256Count = s.write256Count ∧ x.2.1.erase4Count = s.erase4Count ∧ x.2.1.erase32Count = s.erase32Count ∧ x.2.1.erase64Count = s.erase64Count := by
  suffices H : ∀ n done buf s w, len - done ≤ n →
      let x := (readProg (ε := ε) addr len done buf).runStat t d s w
      ((∃ b, x.1 = .ok b) → x.2.1.read4kCount = s.read4kCount + (len - done + 4095) / 4096) ∧ x.2.1.read4kCount ≤ s.read4kCount + (len - done + 4095) / 4096 ∧
        x.2.1.write256Count = s.write256Count ∧ x.2.1.erase4Count = s.erase4Count ∧ x.2.1.erase32Count = s.erase32Count ∧ x.2.1.erase64Count = s.erase64Count from
    H len 0 buf s w (by omega)
  intro n
  induction n with
  | zero =>
    intro done buf s w h
    rw [readProg, dif_neg (by omega)]
    exact ⟨fun _ => by show s.read4kCount = _; omega, by show s.read4kCount ≤ _; omega, rfl, rfl, rfl, rfl⟩
  | succ n ih =>
    intro done buf s w h
    rw [readProg]
    by_cases hd : done < len
    · rw [dif_pos hd]
      obtain ⟨g, hg⟩ : ∃ g, (if len - done > 4096 then 4096 else len - done) = g := ⟨_, rfl⟩
      simp only [hg]
      have hg1 : 0 < g := by split at hg <;> omega
      have hg2 : (len - done + 4095) / 4096 = (len - (done + g) + 4095) / 4096 + 1 := by split at hg <;> omega
      obtain ⟨r, w', hr⟩ : ∃ r w', d.call (.read4k (addr + done) g (buf.drop done)) w = (r, w') := ⟨_, _, rfl⟩
      rw [runStat_call (stat_read hr)]
      rcases r with e | b
      · refine ⟨fun ⟨b, h⟩ => absurd h (by unfold Prog.runStat; simp), ?_, rfl, rfl, rfl, rfl⟩
        show s.read4kCount + 1 ≤ _
        omega
      · obtain ⟨i1, i2, i3⟩ := ih (done + g) (buf.take done ++ b) (s.addRead4k t (d.now w) (d.now w')) w' (by omega)
        refine ⟨fun h => ?_, Nat.le_trans i2 ?_, i3⟩
        · refine (i1 h).trans ?_
          show s.read4kCount + 1 + _ = _
          omega
        · show s.read4kCount + 1 + _ ≤ _
          omega
    · rw [dif_neg hd]
      exact ⟨fun _ => by show s.read4kCount = _; omega, by show s.read4kCount ≤ _; omega, rfl, rfl, rfl, rfl⟩

/-- **C123** `write` of `len` bytes counts one `write_256b` for every begun 256 bytes if it succeeds, at most so many if it fails, and nothing else. -/
theorem C123_write_counted (t : Times τ) (d : Driver ω (Except ε Bytes) τ) (addr len : Nat) (buf : Bytes) (s : Stat τ) (w : ω) :
    let x := (writeProg (ε := ε) addr len 0 buf).runStat t d s w
    (x.1 = .ok () → x.2.1.write256Count = s.write256Count + (len + 255) / 256) ∧ x.2.1.write256Count ≤ s.write256Count + (len + 255) / 256 ∧
      x.2.1.read4kCount = s.read4kCount ∧ x.2.1.erase4Count = s.erase4Count ∧ x.2.1.erase32Count = s.erase32Count ∧ x.2.1.erase64Count = s.erase64Count := by
  suffices H : ∀ n done buf s w, len - done ≤ n →
      let x := (writeProg (ε := ε) addr len done buf).runStat t d s w
      (x.1 = .ok () → x.2.1.write256Count = s.write256Count + (len - done + 255) / 256) ∧ x.2.1.write256Count ≤ s.write256Count + (len - done + 255) / 256 ∧
        x.2.1.read4kCount = s.read4kCount ∧ x.2.1.erase4Count = s.erase4Count ∧ x.2.1.erase32Count = s.erase32Count ∧ x.2.1.erase64Count = s.erase64Count from
    H len 0 buf s w (by omega)
  intro n
  induction n with
  | zero =>
    intro done buf s w h
    rw [writeProg, dif_neg (by omega)]
    exact ⟨fun _ => by show s.write256Count = _; omega, by show s.write256Count ≤ _; omega, rfl, rfl, rfl, rfl⟩
  | succ n ih =>
    intro done buf s w h
    rw [writeProg]
    by_cases hd : done < len
    · rw [dif_pos hd]
      obtain ⟨g, hg⟩ : ∃ g, (if len - done > 256 then 256 else len - done) = g := ⟨_, rfl⟩
      simp only [hg]
      have hg1 : 0 < g := by split at hg <;> omega
      have hg2 : (len - done + 255) / 256 = (len - (done + g) + 255) / 256 + 1 := by split at hg <;> omega
      obtain ⟨r, w', hr⟩ : ∃ r w', d.call (.write256 (addr + done) (buf.drop done)) w = (r, w') := ⟨_, _, rfl⟩
      rw [runStat_call (stat_write hr)]
      rcases r with e | b
      · refine ⟨fun h => absurd h (by unfold Prog.runStat; simp), ?_, rfl, rfl, rfl, rfl⟩
        show s.write256Count + 1 ≤ _
        omega
      · obtain ⟨i1, i2, i3⟩ := ih (done + g) (buf.take done ++ b) (s.addWrite256 t (d.now w) (d.now w')) w' (by omega)
        refine ⟨fun h => ?_, Nat.le_trans i2 ?_, i3⟩
        · refine (i1 h).trans ?_
          show s.write256Count + 1 + _ = _
          omega
        · show s.write256Count + 1 + _ ≤ _
          omega
    · rw [dif_neg hd]
      exact ⟨fun _ => by show s.write256Count = _; omega, by show s.write256Count ≤ _; omega, rfl, rfl, rfl, rfl⟩

/-- a world of a clock; erasing takes 50, other calls take 2, and the erasure of address 7 fails -/
def demoFlash : Driver Nat (Except Unit Bytes) Nat :=
  ⟨fun c w => match c with
    | .size => (.ok [], w)
    | .reset => (.ok [], w)
    | .erase4 a => (if a = 7 then .error () else .ok [], w + 50)
    | .erase32 _ => (.ok [], w + 50)
    | .erase64 _ => (.ok [], w + 50)
    | .read4k _ _ b => (.ok b, w + 2)
    | .write256 _ b => (.ok b, w + 2), id⟩

/-- after clearing: an erasure, one that fails, a page, and a read of two blocks -/
example : ∃ (w : Nat) (s : Stat Nat) (l : List (FlashEvent Nat)), StatRun (ρ := Except Unit Bytes) ⟨0, (· + ·), (· - ·)⟩ w s l ∧ l.length = 6 ∧ s.erase4Count = 2 ∧ s.erase4Time = 100 ∧ s.write256Count = 1 ∧
    s.write256Time = 2 ∧ s.read4kCount = 0 ∧ (demoFlash.call (.erase4 7) 0).1 = .error () :=
  ⟨_, _, _, .call demoFlash (.write256 0 []) (.call demoFlash (.erase4 7) (.call demoFlash .size (.call demoFlash (.erase4 0) (.clear (.call demoFlash (.read4k 0 1 []) (.world (w' := 9) (.new 0)) rfl)) rfl) rfl) rfl) rfl,
    rfl, rfl, rfl, rfl, rfl, rfl, rfl⟩

/-- a read of 4097 bytes succeeds with two calls -/
example : ∃ b, ((readProg (ε := Unit) 0 4097 0 []).runStat ⟨0, (· + ·), (· - ·)⟩ demoFlash (Stat.fresh ⟨0, (· + ·), (· - ·)⟩) 0).1 = .ok b := by
  rw [readProg, dif_pos (by decide)]
  simp only [Prog.runStat, statCall, runWithStat, demoFlash]
  rw [readProg, dif_pos (by decide)]
  simp only [Prog.runStat, statCall, runWithStat]
  rw [readProg, dif_neg (by decide)]
  exact ⟨_, rfl⟩

end Verif.Props
