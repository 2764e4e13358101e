import Verif.Model.RpcChannel
/-
All schedules of calls through an `RpcChannel`: any number of callers (two consoles hold a client in vl_main.rs:136-158), one server loop, polls in any order, calls dropped at any time.
-/
namespace Verif.RpcChan

/-- the channel, the tasks around it, and a record of what happened -/
structure World (Q P : Type) where
  chan : Chan Q P
  server : Server Q P
  /-- calls whose request is not in the channel yet: caller and request -/
  sending : List (Nat × Q)
  /-- calls waiting for their answer -/
  waiting : List (Nat × Q)
  /-- requests that went into the channel, in order -/
  asked : List (Nat × Q)
  /-- requests handled by the server, with its answers, in order -/
  served : List (Q × P)
  /-- calls that returned: caller, request, and the answer returned, in order -/
  results : List (Nat × Q × P)
  /-- number of calls dropped while waiting for their answer -/
  dropped : Nat

def World.new (Q P : Type) : World Q P := ⟨Chan.new, .get, [], [], [], [], [], 0⟩

/-- a call by `i` is in progress -/
def World.calling {Q P : Type} (w : World Q P) (i : Nat) : Prop := (∃ q, (i, q) ∈ w.sending) ∨ ∃ q, (i, q) ∈ w.waiting

variable {Q P : Type} [DecidableEq Q]

/-- one step of any task. `solo`: calls are only begun when no other call is in progress; `drops`: calls may be dropped while waiting for their answer. -/
inductive Step (solo drops : Prop) : World Q P → World Q P → Prop
  /-- a caller that is in no call begins one -/
  | call (w : World Q P) (i : Nat) (q : Q) (hi : ¬ w.calling i) (hs : solo → w.sending = [] ∧ w.waiting = []) : Step solo drops w { w with sending := (i, q) :: w.sending }
  /-- a call that has not sent is polled: it cannot send -/
  | sendPending (w : World Q P) (i : Nat) (q : Q) (c : Chan Q P) (hm : (i, q) ∈ w.sending) (h : w.chan.pollSend q = (c, .sending)) : Step solo drops w { w with chan := c }
  /-- … it sends -/
  | sendWaiting (w : World Q P) (i : Nat) (q : Q) (c : Chan Q P) (hm : (i, q) ∈ w.sending) (h : w.chan.pollSend q = (c, .waiting)) :
      Step solo drops w { w with chan := c, sending := w.sending.erase (i, q), waiting := (i, q) :: w.waiting, asked := w.asked ++ [(i, q)] }
  /-- … it sends and finds an answer at once -/
  | sendReady (w : World Q P) (i : Nat) (q : Q) (c : Chan Q P) (p : P) (hm : (i, q) ∈ w.sending) (h : w.chan.pollSend q = (c, .ready p)) :
      Step solo drops w { w with chan := c, sending := w.sending.erase (i, q), asked := w.asked ++ [(i, q)], results := w.results ++ [(i, q, p)] }
  /-- a waiting call is polled: no answer yet -/
  | waitPending (w : World Q P) (i : Nat) (q : Q) (c : Chan Q P) (hm : (i, q) ∈ w.waiting) (h : w.chan.pollReceive = (c, .waiting)) : Step solo drops w { w with chan := c }
  /-- … it returns an answer -/
  | waitReady (w : World Q P) (i : Nat) (q : Q) (c : Chan Q P) (p : P) (hm : (i, q) ∈ w.waiting) (h : w.chan.pollReceive = (c, .ready p)) :
      Step solo drops w { w with chan := c, waiting := w.waiting.erase (i, q), results := w.results ++ [(i, q, p)] }
  /-- a call is dropped before its request was sent -/
  | dropSending (w : World Q P) (i : Nat) (q : Q) (hm : (i, q) ∈ w.sending) : Step solo drops w { w with sending := w.sending.erase (i, q) }
  /-- a call is dropped while it waits for the answer -/
  | dropWaiting (w : World Q P) (i : Nat) (q : Q) (hd : drops) (hm : (i, q) ∈ w.waiting) : Step solo drops w { w with waiting := w.waiting.erase (i, q), dropped := w.dropped + 1 }
  /-- the server takes a request -/
  | take (w : World Q P) (q : Q) (c : Chan Q P) (hs : w.server = .get) (h : w.chan.takeRequest = some (q, c)) : Step solo drops w { w with chan := c, server := .busy q }
  /-- the server has an answer, whatever it is -/
  | serve (w : World Q P) (q : Q) (p : P) (hs : w.server = .busy q) : Step solo drops w { w with server := .answer p, served := w.served ++ [(q, p)] }
  /-- the server puts the answer into the channel -/
  | put (w : World Q P) (p : P) (c : Chan Q P) (hs : w.server = .answer p) (h : w.chan.putResponse p = some c) : Step solo drops w { w with chan := c, server := .get }

/-- all reachable worlds -/
inductive Reach (solo drops : Prop) : World Q P → Prop
  | start : Reach solo drops (World.new Q P)
  | step {w w' : World Q P} (h : Reach solo drops w) (hs : Step solo drops w w') : Reach solo drops w'

/-- continuing from a world -/
inductive Steps (solo drops : Prop) (w : World Q P) : World Q P → Prop
  | refl : Steps solo drops w w
  | step {w' w'' : World Q P} (h : Steps solo drops w w') (hs : Step solo drops w' w'') : Steps solo drops w w''

/-- the mailbox of downlink packets: a packet arrives, or a console asks for one -/
inductive MailEv (α : Type) where
  | arrive (x : α)
  | poll

/-- the mailbox, and the answers to the polls so far -/
def mailStep {α : Type} (s : Option α × List (Option α)) : MailEv α → Option α × List (Option α)
  | .arrive x => (mailboxPut s.1 x, s.2)
  | .poll => ((mailboxPoll s.1).2, s.2 ++ [(mailboxPoll s.1).1])

def mailRun {α : Type} (evs : List (MailEv α)) : Option α × List (Option α) := evs.foldl mailStep (none, [])

/-- the packets that arrived in a list of events -/
def arrivals {α : Type} : List (MailEv α) → List α
  | [] => []
  | .arrive x :: l => x :: arrivals l
  | .poll :: l => arrivals l

end Verif.RpcChan
