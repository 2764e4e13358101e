import Verif.Model.ReadNyoom
import Verif.Props.TypedIo
import Verif.Lemmas.ConsoleFiles
/-
C128: a file of length-prefixed messages, sent over the console.
-/
namespace Verif.Props
open Verif Verif.Vlfs Verif.Spec Verif.ReadNyoom

/-- the reader gives the bytes `c` and then ends, whatever sizes are asked for -/
def Gives (crc : Bytes → UInt32) (fl : Flash) (r : FileReader) (c : Bytes) : Prop := ∀ ns, reads crc fl r ns = (consumes (c.map .byte) ns).map .ok

theorem gives_step {crc : Bytes → UInt32} {fl : Flash} {r : FileReader} {c : Bytes} (h : Gives crc fl r c) (n : Nat) :
    ∃ r', r.readSlice crc fl n = (.ok (c.take n, if n ≤ c.length then .ok else .endOfFile), r') ∧ Gives crc fl r' (c.drop n) := by
  have hst : (consume (c.map .byte) n).2.1 = if n ≤ c.length then .ok else .endOfFile := by
    clear h
    induction c generalizing n with
    | nil => cases n <;> rfl
    | cons b c ih =>
      cases n with
      | zero => rfl
      | succ n => simp only [List.map_cons, consume, ih n, List.length_cons, Nat.add_le_add_iff_right]
  obtain ⟨m1, m2⟩ := consume_map c n
  rcases hx : r.readSlice crc fl n with ⟨a, r'⟩
  have h1 := h [n]
  simp only [reads, hx, consumes, List.map_cons, List.map_nil, List.cons.injEq, and_true, m1, hst] at h1
  refine ⟨r', by rw [h1], fun ns => ?_⟩
  have h2 := h (n :: ns)
  simp only [reads, hx, consumes, List.map_cons, List.cons.injEq, m2] at h2
  exact h2.2

theorem body_gives {crc : Bytes → UInt32} {fl : Flash} (n : Nat) : ∀ (left got : Nat) (r : FileReader) (c sent : Bytes), n - got = left → Gives crc fl r c →
    ∃ r', body crc fl n got r sent = (some r', sent ++ c.take (n - got)) ∧ Gives crc fl r' (c.drop (n - got)) := by
  intro left
  induction left using Nat.strongRecOn with
  | ind left ih =>
    intro got r c sent hl hg
    unfold body
    split
    next hlt =>
      obtain ⟨r1, e1, g1⟩ := gives_step hg (min 64 (n - got))
      rw [e1]
      simp only
      obtain ⟨r2, e2, g2⟩ := ih (n - (got + min 64 (n - got))) (by omega) (got + min 64 (n - got)) r1 _ (sent ++ c.take (min 64 (n - got))) rfl g1
      refine ⟨r2, ?_, ?_⟩
      · rw [e2, List.append_assoc, ← List.take_add]
        congr 3
        omega
      · rw [List.drop_drop] at g2
        rwa [show min 64 (n - got) + (n - (got + min 64 (n - got))) = n - got by omega] at g2
    next hge =>
      have h0 : n - got = 0 := by omega
      rw [h0]
      exact ⟨r, by simp, by simpa using hg⟩

/-- what a file of the bytes `c` is sent as, for a number of requests; `true`: the transfer has ended. A request takes four bytes, which say how many follow; if there are not four, the
answer is four zeroes. -/
def nyoomSent : Nat → Bytes → Bytes × Bool
  | 0, _ => ([], false)
  | k + 1, c =>
    if c.length < 4 then ([0, 0, 0, 0], true)
    else (c.take (4 + beNat (c.take 4)) ++ (nyoomSent k (c.drop (4 + beNat (c.take 4)))).1, (nyoomSent k (c.drop (4 + beNat (c.take 4)))).2)

theorem answer_gives {crc : Bytes → UInt32} {fl : Flash} {r : FileReader} {c : Bytes} (h : Gives crc fl r c) (sent : Bytes) :
    (c.length < 4 → answer crc fl r sent = ⟨.done, sent ++ [0, 0, 0, 0]⟩) ∧
      (4 ≤ c.length → ∃ r', answer crc fl r sent = ⟨.waits r', sent ++ c.take (4 + beNat (c.take 4))⟩ ∧ Gives crc fl r' (c.drop (4 + beNat (c.take 4)))) := by
  obtain ⟨r1, e1, g1⟩ := gives_step h 4
  have e : Typed.readTyped crc fl r .u32 = (.ok (Typed.decode .u32 (c.take 4, if 4 ≤ c.length then .ok else .endOfFile)), r1) := by
    unfold Typed.readTyped
    have : Typed.Ty.u32.width = 4 := rfl
    rw [this, e1]
  constructor
  · intro hc
    have e3 : Typed.decode .u32 (c.take 4, (if 4 ≤ c.length then .ok else .endOfFile : ReadStatus)) = (none, .endOfFile) := by
      unfold Typed.decode
      have : Typed.Ty.u32.width = 4 := rfl
      simp only [this, List.length_take]
      rw [if_neg (by omega), if_neg (by omega)]
    unfold answer
    rw [e, e3]
  · intro hc
    have e3 : Typed.decode .u32 (c.take 4, (if 4 ≤ c.length then .ok else .endOfFile : ReadStatus)) = (some (beNat (c.take 4)), .ok) := by
      unfold Typed.decode
      have : Typed.Ty.u32.width = 4 := rfl
      simp only [this, List.length_take]
      rw [if_pos (by omega), if_pos hc]
    have e4 : beBytes 4 (beNat (c.take 4)) = c.take 4 := by
      have := beBytes_beNat (c.take 4)
      rwa [List.length_take, Nat.min_eq_left hc] at this
    obtain ⟨r2, e2, g2⟩ := body_gives (beNat (c.take 4)) _ 0 r1 _ (sent ++ beBytes 4 (beNat (c.take 4))) rfl g1
    refine ⟨r2, ?_, ?_⟩
    · unfold answer
      rw [e, e3]
      simp only [e2]
      rw [e4, Nat.sub_zero, List.append_assoc, ← List.take_add]
    · rw [List.drop_drop] at g2
      simpa using g2

theorem rounds_gives {crc : Bytes → UInt32} {fl : Flash} (k : Nat) : ∀ (r : FileReader) (c sent : Bytes), Gives crc fl r c →
    (rounds crc fl k r sent).sent = sent ++ (nyoomSent k c).1 ∧
      (if (nyoomSent k c).2 then (rounds crc fl k r sent).outcome = .done else ∃ r', (rounds crc fl k r sent).outcome = .waits r') := by
  induction k with
  | zero => intro r c sent _; simp [rounds, nyoomSent]
  | succ k ih =>
    intro r c sent hg
    obtain ⟨a1, a2⟩ := answer_gives hg sent
    unfold rounds nyoomSent
    by_cases hc : c.length < 4
    · rw [a1 hc, if_pos hc]; simp
    · obtain ⟨r', e, g⟩ := a2 (by omega)
      rw [e, if_neg hc]
      simp only
      obtain ⟨i1, i2⟩ := ih r' _ (sent ++ c.take (4 + beNat (c.take 4))) g
      exact ⟨by rw [i1, List.append_assoc], i2⟩

theorem nyoom_openForRead_dev (fs : FS) (id : Nat) : (fs.openForRead id).2.dev = fs.dev := by
  unfold FS.openForRead
  split
  · rfl
  · rfl
  · split
    · rfl
    · split
      · rename_i h
        unfold FS.markOpened at h
        split at h <;> (injection h with _ h; rw [← h])
      · rename_i h
        unfold FS.markOpened at h
        split at h <;> (injection h with _ h; rw [← h])

/-- **C128** A file that reads as `c`: the program never panics, and the host receives, for each byte it sends, the next four bytes of the file and as many bytes after them as they say (or what
is left); when less than four bytes are left it receives four zeroes, the file is closed, and the program ends. -/
theorem C128_any_file {crc : Bytes → UInt32} {fs : FS} {id : Nat} {c : Bytes} (h : ReadsAs crc fs id c) (hid : id < 2 ^ 64) (requests : Nat) :
    ∃ r fs', fs.openForRead id = (.ok r, fs') ∧ (serve crc fs (beBytes 8 id) requests).1.sent = (nyoomSent requests c).1 ∧
      (if (nyoomSent requests c).2 then (serve crc fs (beBytes 8 id) requests).1.outcome = .done ∧ (serve crc fs (beBytes 8 id) requests).2 = fs'.closeReader r
        else (∃ r', (serve crc fs (beBytes 8 id) requests).1.outcome = .waits r') ∧ (serve crc fs (beBytes 8 id) requests).2 = fs') := by
  obtain ⟨r, fs', e, hg⟩ := h
  have hdev : fs'.dev = fs.dev := by
    have := congrArg (fun x => x.2.dev) e
    simp only at this
    rw [← this]
    exact nyoom_openForRead_dev fs id
  obtain ⟨i1, i2⟩ := rounds_gives requests r c [] hg
  refine ⟨r, fs', e, ?_⟩
  unfold serve
  rw [beNat_beBytes_of_lt (by omega), e]
  simp only [hdev]
  rcases hx : rounds crc fs.dev.flash requests r [] with ⟨o, s⟩
  rw [hx] at i1 i2
  simp only [List.nil_append] at i1 i2
  cases o <;> cases hb : (nyoomSent requests c).2 <;> simp [hb] at i2 <;> simp [i1]

/-- a message as it is stored and as it is sent -/
def nyoomFrame (m : Bytes) : Bytes := beBytes 4 m.length ++ m

theorem nyoomSent_messages (ms : List Bytes) (hm : ∀ m ∈ ms, m.length < 2 ^ 32) (k : Nat) :
    nyoomSent k (ms.flatMap nyoomFrame) = if k ≤ ms.length then ((ms.take k).flatMap nyoomFrame, false) else (ms.flatMap nyoomFrame ++ [0, 0, 0, 0], true) := by
  induction ms generalizing k with
  | nil => cases k <;> simp [nyoomSent]
  | cons m ms ih =>
    cases k with
    | zero => simp [nyoomSent]
    | succ k =>
      have h1 : m.length < 2 ^ 32 := hm m List.mem_cons_self
      have e0 : (m :: ms).flatMap nyoomFrame = beBytes 4 m.length ++ (m ++ ms.flatMap nyoomFrame) := by simp [nyoomFrame]
      have e1 : ((m :: ms).flatMap nyoomFrame).take 4 = beBytes 4 m.length := by rw [e0]; exact List.take_left' (beBytes_length 4 _)
      have e2 : beNat (beBytes 4 m.length) = m.length := beNat_beBytes_of_lt (by omega)
      have el : (nyoomFrame m).length = 4 + m.length := by simp [nyoomFrame, beBytes_length]
      have ef : (m :: ms).flatMap nyoomFrame = nyoomFrame m ++ ms.flatMap nyoomFrame := by simp
      unfold nyoomSent
      rw [if_neg (by rw [ef, List.length_append, el]; omega), e1, e2, ef, List.take_left' el, List.drop_left' el, ih (fun x hx => hm x (List.mem_cons_of_mem _ hx))]
      simp only [List.length_cons, Nat.add_le_add_iff_right, List.take_succ_cons]
      split <;> simp

/-- **C128** A file of messages: the host receives one message for each byte it sends, in order and complete, each with its length before it, and after the last one four zeroes; then
the program has ended. -/
theorem C128_messages {crc : Bytes → UInt32} {fs : FS} {id : Nat} {ms : List Bytes} (h : ReadsAs crc fs id (ms.flatMap nyoomFrame)) (hid : id < 2 ^ 64)
    (hm : ∀ m ∈ ms, m.length < 2 ^ 32) (requests : Nat) :
    (requests ≤ ms.length → (serve crc fs (beBytes 8 id) requests).1.sent = (ms.take requests).flatMap nyoomFrame ∧ ∃ r, (serve crc fs (beBytes 8 id) requests).1.outcome = .waits r) ∧
      (ms.length < requests → (serve crc fs (beBytes 8 id) requests).1.sent = ms.flatMap nyoomFrame ++ [0, 0, 0, 0] ∧ (serve crc fs (beBytes 8 id) requests).1.outcome = .done) := by
  obtain ⟨r, fs', _, h1, h2⟩ := C128_any_file h hid requests
  have h3 := nyoomSent_messages ms hm requests
  constructor
  · intro hk
    rw [if_pos hk] at h3
    rw [h3] at h1 h2
    exact ⟨h1, h2.1⟩
  · intro hk
    rw [if_neg (by omega)] at h3
    rw [h3] at h1 h2
    exact ⟨h1, h2.1⟩

/-- **C128 (finding)** An empty message cannot be told from the end: for a file that has one after the messages `ms`, the host receives after the next request what it would receive for a file that
ends there. But the device has not ended: it waits for another request with the file open, and the messages after the empty one have not been sent. -/
theorem C128_empty_message_looks_like_the_end {crc : Bytes → UInt32} {fs fs' : FS} {id id' : Nat} {ms more : List Bytes} (h : ReadsAs crc fs id ((ms ++ [] :: more).flatMap nyoomFrame))
    (h' : ReadsAs crc fs' id' (ms.flatMap nyoomFrame)) (hid : id < 2 ^ 64) (hid' : id' < 2 ^ 64) (hm : ∀ m ∈ ms ++ more, m.length < 2 ^ 32) :
    (serve crc fs (beBytes 8 id) (ms.length + 1)).1.sent = (serve crc fs' (beBytes 8 id') (ms.length + 1)).1.sent ∧
      (serve crc fs' (beBytes 8 id') (ms.length + 1)).1.outcome = .done ∧ ∃ r, (serve crc fs (beBytes 8 id) (ms.length + 1)).1.outcome = .waits r := by
  have a := (C128_messages h hid (by
    intro m hx
    rcases List.mem_append.mp hx with hx | hx
    · exact hm m (List.mem_append_left _ hx)
    · rcases List.mem_cons.mp hx with rfl | hx
      · simp
      · exact hm m (List.mem_append_right _ hx)) (ms.length + 1)).1 (by simp)
  have b := (C128_messages h' hid' (fun m hx => hm m (List.mem_append_left _ hx)) (ms.length + 1)).2 (by omega)
  refine ⟨?_, b.2, a.2⟩
  rw [a.1, b.1, List.take_append, List.take_of_length_le (by omega), Nat.add_sub_cancel_left]
  simp [nyoomFrame, beBytes]

/-- the messages of three and of no bytes as they are stored -/
example : [[1, 2, 3], []].flatMap nyoomFrame = [0, 0, 0, 3, 1, 2, 3, 0, 0, 0, 0] := by decide

/-- on a new chip such a file can be stored (a case of the hypotheses of C128_messages) -/
theorem C128_demo (crc : Bytes → UInt32) (ms : List Bytes) (h0 : ms.flatMap nyoomFrame ≠ []) (h1 : (ms.flatMap nyoomFrame).length ≤ 200) :
    ∃ fs, ReadsAs crc fs 1 (ms.flatMap nyoomFrame) := by
  obtain ⟨fs2, new, hh, g2, s2, hcnt⟩ := demo_fresh crc
  obtain ⟨first, f1, f2⟩ := Sys.wst (as := []) (bs := []) s2 rfl
  generalize hD : ms.flatMap nyoomFrame = D at h0 h1
  obtain ⟨t1, t2, t3⟩ := extend_small f2 (fun _ => (0, 0)) D (List.length_pos_iff.mpr h0) (by simp; omega)
  have q3 := hh.step (.extend (fun _ => (0, 0)) D _ _ _ [] [] _ rfl rfl rfl (Prod.ext t1 rfl))
  have q4 := q3.step (.close _ [] [] _ rfl rfl)
  obtain ⟨pre, p1, _, p3⟩ := C11_file_size q4 (k := ⟨1, 5, D, D, [], none, false, false⟩) (by simp) rfl rfl
  have hpre : pre = [] := List.prefix_nil.mp p1
  subst hpre
  rw [List.append_nil] at p3
  have ho := fun m d => closeWriter_opened (crc := crc) (fs := ⟨fs2.at', m, d⟩) (l := []) (id := 1) t3.id g2 (by simp)
  refine ⟨_, p3 ?_ ?_⟩
  · rw [ho]; exact List.not_mem_nil
  · rw [ho]; decide

/-- A message cut off at the end of the file (the writer was stopped by a power loss) is announced with its full length, and less is sent: the host cannot know, and takes the zeroes of the next
answer for the rest of the message -/
example : nyoomSent 2 [0, 0, 0, 3, 1] = ([0, 0, 0, 3, 1, 0, 0, 0, 0], true) := by decide

end Verif.Props
