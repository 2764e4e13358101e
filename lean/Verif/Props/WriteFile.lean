import Verif.Model.WriteFile
import Verif.Props.Files
import Verif.Props.LogFile
/-
C127: a file received over the console.
-/
namespace Verif.Props
open Verif Verif.Vlfs Verif.Spec Verif.WriteFile

/-- the lengths the device asks for: parts of 64 bytes and what is left -/
def partLengths (size : Nat) : List Nat := List.replicate (size / 64) 64 ++ if size % 64 = 0 then [] else [size % 64]

theorem partLengths_step (n : Nat) (h : 0 < n) : partLengths n = min 64 n :: partLengths (n - min 64 n) := by
  unfold partLengths
  rcases Nat.lt_or_ge n 64 with h1 | h1
  · have e1 : n / 64 = 0 := by omega
    have e2 : n % 64 = n := by omega
    have e3 : min 64 n = n := by omega
    rw [e1, e2, e3]
    simp [Nat.pos_iff_ne_zero.mp h]
  · have e3 : min 64 n = 64 := by omega
    obtain ⟨k, hk⟩ : ∃ k, n / 64 = k + 1 := ⟨n / 64 - 1, by omega⟩
    have e1 : (n - 64) / 64 = k := by omega
    have e2 : (n - 64) % 64 = n % 64 := by omega
    rw [e3, hk, e1, e2, List.replicate_succ]
    rfl

theorem partLengths_zero : partLengths 0 = [] := rfl

/-- what is known about the file system after the program: `got` is what the host has sent so far, `left` the number of bytes that are missing -/
def Uploaded (crc : Bytes → UInt32) (ks : List Known) (id typ size : Nat) (msgs : List Bytes) (r : Run) : Prop :=
  match r.outcome with
  | .done => ∃ n, Hist crc r.fs (ks ++ [⟨id, typ, (msgs.take n).flatten, (msgs.take n).flatten, [], none, false, false⟩]) ∧
      (msgs.take n).map List.length = partLengths size ∧ (msgs.take n).flatten.length = size ∧
      r.sent = (partLengths size).map (beBytes 4) ++ [beBytes 8 id]
  | .waits w => Hist crc r.fs (ks ++ [⟨id, typ, msgs.flatten, [], [], some w, true, false⟩]) ∧ msgs.flatten.length < size ∧
      msgs.map List.length = (partLengths size).take msgs.length ∧ r.sent = ((partLengths size).take (msgs.length + 1)).map (beBytes 4)
  | .badPart => ∃ n, (partLengths size)[n]?.isSome ∧ n < msgs.length ∧ (msgs[n]?).map List.length ≠ (partLengths size)[n]?
  | .fsError _ => True

theorem parts_spec {crc : Bytes → UInt32} (rng : Nat → Nat → Nat × Nat) {ks : List Known} {id typ size : Nat} :
    ∀ (msgs done : List Bytes) (w : FileWriter) (fs : FS) (sent : List Bytes),
      Hist crc fs (ks ++ [⟨id, typ, done.flatten, [], [], some w, true, false⟩]) → done.flatten.length ≤ size →
      partLengths size = done.map List.length ++ partLengths (size - done.flatten.length) → sent = (done.map List.length).map (beBytes 4) →
      Uploaded crc ks id typ size (done ++ msgs) (parts crc rng id size done.flatten.length msgs w fs sent) := by
  intro msgs
  induction msgs with
  | nil =>
    intro done w fs sent hh hle hask hs
    unfold parts
    split
    next hlt =>
      have hst := partLengths_step (size - done.flatten.length) (by omega)
      have ht : (partLengths size).take (done.length + 1) = done.map List.length ++ [min 64 (size - done.flatten.length)] := by
        rw [hask, hst, List.take_append, List.take_of_length_le (by rw [List.length_map]; omega), List.length_map, Nat.add_sub_cancel_left]
        rfl
      have ht0 : (partLengths size).take done.length = done.map List.length := by
        rw [hask]
        exact List.take_left' (by rw [List.length_map])
      simp only [Uploaded, List.append_nil]
      exact ⟨hh, hlt, ht0.symm, by rw [hs, ht]; simp⟩
    next hge =>
      have heq : done.flatten.length = size := by omega
      have hcl := hh.step (.close w ks [] _ rfl rfl)
      obtain ⟨pre, h1, ⟨n, h2⟩, _⟩ := C11_file_size hcl (k := ⟨id, typ, done.flatten, done.flatten, [], none, false, false⟩) (by simp) rfl rfl
      unfold finish
      simp only at h2
      rw [h2]
      simp only [Uploaded, List.append_nil]
      have h0 : partLengths size = done.map List.length := by rw [hask, heq, Nat.sub_self, partLengths_zero, List.append_nil]
      exact ⟨done.length, by rw [List.take_length]; exact hcl, by rw [List.take_length, h0], by rw [List.take_length, heq], by rw [hs, h0]⟩
  | cons m ms ih =>
    intro done w fs sent hh hle hask hs
    unfold parts
    split
    next hlt =>
      have hst := partLengths_step (size - done.flatten.length) (by omega)
      simp only
      split
      next hml =>
        rcases hx : fs.extendWriter crc w (rng done.flatten.length) m with ⟨_ | _, w1, fs1⟩
        · simp only [Uploaded]
        · simp only
          have hh1 := hh.step (.extend (rng done.flatten.length) m w w1 fs1 ks [] _ rfl rfl rfl hx)
          have hlen : (done ++ [m]).flatten.length = done.flatten.length + min 64 (size - done.flatten.length) := by simp [hml]
          have := ih (done ++ [m]) w1 fs1 (sent ++ [beBytes 4 (min 64 (size - done.flatten.length))])
            (by simpa using hh1) (by rw [hlen]; omega)
            (by rw [hask, hst, hlen, Nat.sub_add_eq]; simp [hml]) (by rw [hs]; simp [hml])
          rw [hlen] at this
          simpa using this
      next hml =>
        simp only [Uploaded]
        refine ⟨done.length, ?_, by simp, ?_⟩
        · rw [hask, hst]; simp
        · rw [hask, hst]; simpa using hml
    next hge =>
      have heq : done.flatten.length = size := by omega
      have hcl := hh.step (.close w ks [] _ rfl rfl)
      obtain ⟨pre, h1, ⟨n, h2⟩, _⟩ := C11_file_size hcl (k := ⟨id, typ, done.flatten, done.flatten, [], none, false, false⟩) (by simp) rfl rfl
      unfold finish
      simp only at h2
      rw [h2]
      simp only [Uploaded]
      have h0 : partLengths size = done.map List.length := by rw [hask, heq, Nat.sub_self, partLengths_zero, List.append_nil]
      have ht : (done ++ m :: ms).take done.length = done := by simp
      exact ⟨done.length, by rw [ht]; exact hcl, by rw [ht, h0], by rw [ht, heq], by rw [hs, h0]⟩

/-- **C127** The program that receives a file, on any file system with room in the directory and for any messages of the host: if it ends, there is one new file with the type that was
asked for, which holds exactly the bytes of the host's parts, as many as announced; the host was asked for parts of 64 bytes and a shorter last one, and was sent the file's id. If it waits, the
host has not sent everything, and everything it has sent is in the file being written. It stops on a part of the wrong length, and otherwise only on an error of the file system. All other files are as
they were. -/
theorem C127_upload {crc : Bytes → UInt32} {fs : FS} {ks : List Known} (hr : Hist crc fs ks) (hcap : ks.length < 2518) (hok : fs.at'.seq + 2 < 2 ^ 64 ∧ fs.at'.maxId + 2 < 2 ^ 64)
    (rngs : Nat → Nat) (rng : Nat → Nat → Nat × Nat) (typ size : Nat) (ht : typ < 0x4000) (hsz : size < 2 ^ 32) (msgs : List Bytes) :
    ∃ id, (∀ k ∈ ks, k.id ≠ id) ∧ Uploaded crc ks id typ size msgs (upload crc rngs rng fs (beBytes 2 typ ++ beBytes 4 size) msgs) := by
  have e1 : beNat ((beBytes 2 typ ++ beBytes 4 size).take 2) = typ := by
    rw [List.take_left' (beBytes_length 2 typ), beNat_beBytes_of_lt (by omega)]
  have e2 : beNat ((beBytes 2 typ ++ beBytes 4 size).drop 2) = size := by
    rw [List.drop_left' (beBytes_length 2 typ), beNat_beBytes_of_lt (by omega)]
  obtain ⟨files, leak, hfs, hsys⟩ := hist_inv hr
  have hlen : (files.map (·.e)).length < 2518 := by
    rw [List.length_map]; rw [← hfs, List.length_map] at hcap; exact hcap
  obtain ⟨fs1, c1, c2, _⟩ := createFile_spec hsys.reach.dir typ hlen
  have hok0 : countersOk fs := by unfold countersOk; omega
  have hok1 : countersOk fs1 := by unfold countersOk; rw [c2.seq, c2.maxId]; omega
  have h1 := hr.step (.dir (.create typ _ fs1 c1 hcap ht hok0))
  have huniq := LogFile.ids_unique (hist_inv h1)
  refine ⟨fs.at'.maxId + 1, ?_, ?_⟩
  · intro k hk
    rw [List.pairwise_append] at huniq
    exact huniq.2.2 k hk _ (List.mem_singleton_self _)
  · unfold upload
    rw [e1, e2, c1]
    simp only
    rcases hx : fs1.openForWrite (fs.at'.maxId + 1) rngs with ⟨er | w, fs2⟩
    · simp only [Uploaded]
    · simp only
      have h2 := h1.step (.openWrite _ rngs w fs2 ks [] _ rfl rfl rfl rfl hx hok1)
      have := parts_spec rng msgs [] w fs2 [] (id := fs.at'.maxId + 1) (typ := typ) (size := size) (ks := ks) (by simpa using h2) (by simp) (by simp) rfl
      simpa using this

/-- the parts of a file that the host sends when it is asked -/
def cutUp : Nat → Bytes → List Bytes
  | 0, _ => []
  | n + 1, l => if l = [] then [] else l.take 64 :: cutUp n (l.drop 64)

theorem cutUp_spec : ∀ (n : Nat) (l : Bytes), l.length ≤ n → (cutUp n l).flatten = l ∧ (cutUp n l).map List.length = partLengths l.length := by
  intro n
  induction n with
  | zero =>
    intro l h
    have : l = [] := List.length_eq_zero_iff.mp (by omega)
    subst this
    exact ⟨rfl, rfl⟩
  | succ n ih =>
    intro l h
    unfold cutUp
    split
    next he => subst he; exact ⟨rfl, rfl⟩
    next he =>
      have hp := List.length_pos_iff.mpr he
      obtain ⟨i1, i2⟩ := ih (l.drop 64) (by rw [List.length_drop]; omega)
      refine ⟨by rw [List.flatten_cons, i1, List.take_append_drop], ?_⟩
      rw [List.map_cons, i2, partLengths_step l.length hp, List.length_take, List.length_drop]
      congr 2
      omega

/-- **C127** a host that sends the parts it is asked for: the program ends with the file stored, or on an error of the file system -/
theorem C127_host {crc : Bytes → UInt32} {fs : FS} {ks : List Known} (hr : Hist crc fs ks) (hcap : ks.length < 2518) (hok : fs.at'.seq + 2 < 2 ^ 64 ∧ fs.at'.maxId + 2 < 2 ^ 64)
    (rngs : Nat → Nat) (rng : Nat → Nat → Nat × Nat) (typ : Nat) (ht : typ < 0x4000) (content : Bytes) (hsz : content.length < 2 ^ 32) :
    let r := upload crc rngs rng fs (beBytes 2 typ ++ beBytes 4 content.length) (cutUp content.length content)
    (∃ e, r.outcome = .fsError e) ∨
      r.outcome = .done ∧ ∃ id, (∀ k ∈ ks, k.id ≠ id) ∧ Hist crc r.fs (ks ++ [⟨id, typ, content, content, [], none, false, false⟩]) ∧
        r.sent = (partLengths content.length).map (beBytes 4) ++ [beBytes 8 id] ∧
        (id ∉ r.fs.at'.opened → r.fs.at'.opened.length < 32 → ReadsAs crc r.fs id content) := by
  intro r
  obtain ⟨f1, f2⟩ := cutUp_spec content.length content le_rfl
  obtain ⟨id, h1, h2⟩ := C127_upload hr hcap hok rngs rng typ content.length ht hsz (cutUp content.length content)
  have h2 : Uploaded crc ks id typ content.length (cutUp content.length content) r := h2
  cases ho : r.outcome with
  | fsError e => exact .inl ⟨e, rfl⟩
  | waits w =>
    simp only [Uploaded, ho] at h2
    rw [f1] at h2
    exact absurd h2.2.1 (lt_irrefl _)
  | badPart =>
    simp only [Uploaded, ho] at h2
    obtain ⟨n, _, _, h3⟩ := h2
    rw [← f2, List.getElem?_map] at h3
    exact absurd rfl h3
  | done =>
    simp only [Uploaded, ho] at h2
    obtain ⟨n, h3, _, h4, h5⟩ := h2
    have hfl : ((cutUp content.length content).take n).flatten = content := by
      have hpre : ((cutUp content.length content).take n).flatten <+: content := by
        conv_rhs => rw [← f1]
        conv_rhs => rw [← List.take_append_drop n (cutUp content.length content), List.flatten_append]
        exact List.prefix_append _ _
      exact hpre.eq_of_length h4
    rw [hfl] at h3
    refine .inr ⟨rfl, id, h1, h3, h5, ?_⟩
    intro h6 h7
    obtain ⟨pre, p1, _, p3⟩ := C11_file_size h3 (k := ⟨id, typ, content, content, [], none, false, false⟩) (by simp) rfl rfl
    have hpre : pre = [] := List.prefix_nil.mp p1
    subst hpre
    simpa using p3 h6 h7

/-- **C127** a file of any content is asked for in parts of at most 64 bytes, which are the content -/
theorem C127_parts (content : Bytes) : (cutUp content.length content).flatten = content ∧ (cutUp content.length content).map List.length = partLengths content.length ∧
    (partLengths content.length).sum = content.length ∧ ∀ n ∈ partLengths content.length, 0 < n ∧ n ≤ 64 := by
  obtain ⟨f1, f2⟩ := cutUp_spec content.length content le_rfl
  refine ⟨f1, f2, ?_, ?_⟩
  · unfold partLengths
    split <;> simp <;> omega
  · intro n hn
    unfold partLengths at hn
    rcases List.mem_append.mp hn with h | h
    · have := (List.mem_replicate.mp h).2; omega
    · split at h
      · exact absurd h (List.not_mem_nil)
      · have := List.mem_singleton.mp h; omega

/-- 150 bytes are asked for as 64 + 64 + 22 -/
example : partLengths 150 = [64, 64, 22] := rfl

theorem finish_done {crc : Bytes → UInt32} {fs : FS} {id typ : Nat} {data : Bytes} {w : FileWriter} (h : Hist crc fs [⟨id, typ, data, [], [], some w, true, false⟩]) (sent : List Bytes) :
    (finish crc id w fs sent).outcome = .done := by
  have hcl := h.step (.close w [] [] _ rfl rfl)
  obtain ⟨pre, h1, ⟨n, h2⟩, _⟩ := C11_file_size hcl (k := ⟨id, typ, data, data, [], none, false, false⟩) (by simp) rfl rfl
  unfold finish
  simp only at h2
  rw [h2]

/-- on a new chip a small file is received (a case of the hypotheses, and of the end of `C127_host`) -/
theorem C127_demo (crc : Bytes → UInt32) (content : Bytes) (h0 : content ≠ []) (h1 : content.length ≤ 64) :
    ∃ fs, Hist crc fs [] ∧ (fs.at'.seq + 2 < 2 ^ 64 ∧ fs.at'.maxId + 2 < 2 ^ 64) ∧
      (upload crc (fun _ => 0) (fun _ _ => (0, 0)) fs (beBytes 2 7 ++ beBytes 4 content.length) (cutUp content.length content)).outcome = .done := by
  obtain ⟨s0, a0, m0⟩ := format_sys crc
  have hh0 : Hist crc (FS.mount fun _ => 0xFF).2 [] := .format _ Props.blank_noheader
  generalize (FS.mount fun _ => 0xFF).2 = fs0 at s0 a0 hh0 m0
  have hc : fs0.at'.seq + 2 < 2 ^ 64 ∧ fs0.at'.maxId + 2 < 2 ^ 64 := by rw [a0]; exact ⟨by decide, by decide⟩
  refine ⟨fs0, hh0, hc, ?_⟩
  have e1 : beNat ((beBytes 2 7 ++ beBytes 4 content.length).take 2) = 7 := by
    rw [List.take_left' (beBytes_length 2 7), beNat_beBytes_of_lt (by decide)]
  have e2 : beNat ((beBytes 2 7 ++ beBytes 4 content.length).drop 2) = content.length := by
    rw [List.drop_left' (beBytes_length 2 7), beNat_beBytes_of_lt (by omega)]
  have hlen := List.length_pos_iff.mpr h0
  have hmsgs : cutUp content.length content = [content] := by
    obtain ⟨n, hn⟩ : ∃ n, content.length = n + 1 := ⟨content.length - 1, by omega⟩
    rw [hn]
    unfold cutUp
    rw [if_neg h0, List.take_of_length_le h1, List.drop_of_length_le h1]
    cases n <;> simp [cutUp]
  rw [hmsgs]
  obtain ⟨fs1, c1, c2, _⟩ := createFile_spec s0.reach.dir 7 (by decide)
  have ok0 : countersOk fs0 := by unfold countersOk; omega
  have ok1 : countersOk fs1 := by unfold countersOk; rw [c2.seq, c2.maxId]; omega
  obtain ⟨_, o1, s1⟩ := create_sys s0 c1 (by decide) (by decide) ok0
  have o1' : fs1.at'.opened = [] := by rw [o1, a0]; rfl
  obtain ⟨new, fs2, g1, g2, s2⟩ := openWrite_fresh (as := []) (bs := []) s1 rfl rfl rfl (by rw [o1']; exact List.not_mem_nil) (by rw [o1']; decide) ok1
    (by rw [(freeBytes_eq s1.inv).1]; simp [FileSt.own]) (fun _ => 0)
  obtain ⟨w', fs', k1, k2⟩ := small_writes (ops := [.write (fun _ => (0, 0)) content]) s2 rfl rfl
    (by intro o ho; rw [List.mem_singleton] at ho; exact ⟨_, _, ho, h0⟩) (by simp [writtenBytes]; omega)
  obtain ⟨w3, fs3, hx⟩ : ∃ w3 fs3, fs2.extendWriter crc (FileWriter.new new (fs0.at'.maxId + 1)) (fun _ => (0, 0)) content = (.ok (), w3, fs3) := by
    simp only [runWriter] at k1
    rcases hx : fs2.extendWriter crc (FileWriter.new new (fs0.at'.maxId + 1)) (fun _ => (0, 0)) content with ⟨_ | _, w3, fs3⟩
    · rw [hx] at k1; simp at k1
    · exact ⟨_, _, rfl⟩
  have hm : min 64 (content.length - 0) = content.length := by omega
  have t1 := hh0.step (.dir (.create 7 _ fs1 c1 (by decide) (by decide) ok0))
  have t2 := t1.step (.openWrite _ (fun _ => 0) _ fs2 [] [] _ rfl rfl rfl rfl g1 ok1)
  have t3 := t2.step (.extend (fun _ => (0, 0)) content _ w3 fs3 [] [] _ rfl rfl rfl hx)
  unfold upload
  rw [e1, e2, c1]
  simp only
  rw [g1]
  simp only
  unfold parts
  rw [if_pos hlen]
  simp only
  rw [if_pos hm.symm, hx]
  simp only
  unfold parts
  rw [if_neg (by omega)]
  exact finish_done t3 _

end Verif.Props
