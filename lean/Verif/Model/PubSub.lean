import Verif.Basic
/-
embassy `PubSubChannel` with `publish_immediate` and `next_message_pure`, as documented: the channel keeps the last `cap` messages (a message all subscribers have read goes
earlier, which nobody can notice), each subscriber reads on where it stopped, and skips what it has lost.
The model keeps everything ever published; a subscriber is the number of the next message it would read.
-/
namespace Verif.PubSub

/-- the number of the next message a subscriber at `pos` gets, after skipping lost ones -/
def next {α : Type} (cap : Nat) (sent : List α) (pos : Nat) : Nat := max pos (sent.length - cap)

/-- what a subscriber can read -/
def unread {α : Type} (cap : Nat) (sent : List α) (pos : Nat) : List α := sent.drop (next cap sent pos)

end Verif.PubSub
