import Verif.Model.Resampler
/-
The player behind the strain graph of the OZYS app (ozys-app/src/database/RealtimeStrainGraphPlayer.ts). Simplifications as in Model/Resampler.lean; timestamps are integers of milliseconds. The samples of
one packet are computed first and then added to the output, which cannot be told apart.
-/
namespace Verif.Ozys

/-- `OzysChannelRealtimeReadings`; the noises are not used here. models OzysDevice.ts:25-38 -/
structure Packet where
  timestamp : Int
  readings : List Rat

/-- a point of the graph: time and reading; `none` is a gap in the line. models RealtimeStrainGraphPlayer.ts:16-19 -/
abbrev Point := Option (Rat × Rat)

/-- the player. models RealtimeStrainGraphPlayer.ts:11-19 -/
structure Player (σ : Type) where
  targetRate : Rat
  lastTimestamp : Int
  resampler : Option (Resampler σ)
  output : CBuf Point

/-- the constructor; `none` = throws. models RealtimeStrainGraphPlayer.ts:21-32 -/
def Player.new {σ : Type} (duration : Rat) (sampleCount : Int) : Option (Player σ) :=
  (CBuf.new sampleCount).map fun out => ⟨sampleCount / (duration / 1000), -1, none, out⟩

/-- `%` of JavaScript: the remainder has the sign of the dividend -/
def jsMod (x y : Rat) : Rat := if 0 ≤ x / y then x - y * ⌊x / y⌋ else x - y * ⌈x / y⌉

/-- `createResampler`. models RealtimeStrainGraphPlayer.ts:61-68, 29 -/
def newResampler {σ : Type} (f0 : σ) (targetRate : Rat) (timestamp : Int) : Resampler σ :=
  .new f0 timestamp 2000 targetRate (-(jsMod timestamp (1000 / targetRate)))

/-- `onRealtimeReadings` for the player's channel: what it adds to the output, and the player afterwards. models RealtimeStrainGraphPlayer.ts:34-59 -/
def Player.packet {σ : Type} (p : Filter σ) (fuel : Nat) (f0 : σ) (pl : Player σ) (d : Packet) : Option (List Point × Player σ) :=
  let choice : List Point × Resampler σ :=
    match pl.resampler with
    | none => ([], newResampler f0 pl.targetRate d.timestamp)
    | some r => if d.timestamp ≠ pl.lastTimestamp + 10 then ([none], newResampler f0 pl.targetRate d.timestamp) else ([], r)
  (choice.2.feed p fuel d.readings).map fun a =>
    (choice.1 ++ a.1.map some, { pl with resampler := some a.2, output := (choice.1 ++ a.1.map some).foldl CBuf.addLast pl.output, lastTimestamp := d.timestamp })

/-- what happens to a player: a packet of its channel, a packet of another one, `getNewData` -/
inductive POp
  | packet (d : Packet)
  | other (d : Packet)
  | getNewData

/-- what is seen of it: points added to the output, and what `getNewData` returned -/
inductive PEv
  | added (x : Point)
  | got (l : List (Option Point))

/-- one step. models RealtimeStrainGraphPlayer.ts:34-37, 70-74 -/
def Player.step {σ : Type} (p : Filter σ) (fuel : Nat) (f0 : σ) (pl : Player σ) : POp → Option (List PEv × Player σ)
  | .packet d => (pl.packet p fuel f0 d).map fun a => (a.1.map .added, a.2)
  | .other _ => some ([], pl)
  | .getNewData => some ([.got pl.output.toArray], { pl with output := pl.output.clear })

/-- a history: everything seen -/
def Player.run {σ : Type} (p : Filter σ) (fuel : Nat) (f0 : σ) (pl : Player σ) : List POp → Option (List PEv × Player σ)
  | [] => some ([], pl)
  | o :: os => (pl.step p fuel f0 o).bind fun a => (a.2.run p fuel f0 os).map fun b => (a.1 ++ b.1, b.2)

end Verif.Ozys
