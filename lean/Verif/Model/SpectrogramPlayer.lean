import Verif.Model.Spectrogram
import Verif.Model.Resampler2D
import Verif.Model.StrainPlayer
import Verif.Model.OzysDevices
/-
The player behind the spectrogram of the OZYS app (ozys-app/src/database/RealtimeSpectrogramPlayer.ts). Simplifications as in Model/Spectrogram.lean and Model/Resampler2D.lean; timestamps are integers of
milliseconds. A frequency axis with a cell that is not a number (C111) is not covered from there on: `none`.
-/
namespace Verif.Ozys

/-- a column of the spectrogram: time and amplitudes; `none` is a gap. models RealtimeSpectrogramPlayer.ts:16-19 -/
abbrev SPoint := Option (Rat × List Rat)

/-- the player. models RealtimeSpectrogramPlayer.ts:14-33 -/
structure SPlayer (σ : Type) where
  targetRate : Rat
  axis : FAxis
  lastTimestamp : Int
  resampler : Option (Resampler2 σ)
  buf : FBuf
  output : CBuf SPoint

/-- the constructor; `none` = throws. models RealtimeSpectrogramPlayer.ts:35-53 -/
def SPlayer.new {σ : Type} (duration : Rat) (sampleCount : Int) (minFrequency maxFrequency : Rat) (count : Nat) : Option (SPlayer σ) :=
  (CBuf.new sampleCount).map fun out => ⟨sampleCount / (duration / 1000), .new minFrequency maxFrequency count, -1, none, .new count, out⟩

/-- the amplitudes, if all are numbers -/
def FBuf.numbers (b : FBuf) : Option (List Rat) := b.mapM fun x => x

/-- `createResampler`. models RealtimeSpectrogramPlayer.ts:171-179 -/
def newResampler2 {σ : Type} (f0 : σ) (width : Nat) (targetRate : Rat) (timestamp : Int) : Resampler2 σ :=
  .new f0 width timestamp 10 targetRate (-(jsMod timestamp (1000 / targetRate)))

/-- the time axis: the resampler, and a gap mark. models RealtimeSpectrogramPlayer.ts:60-71 -/
def SPlayer.choose {σ : Type} (f0 : σ) (pl : SPlayer σ) (timestamp : Int) : List SPoint × Resampler2 σ :=
  match pl.resampler with
  | none => ([], newResampler2 f0 pl.buf.length pl.targetRate timestamp)
  | some r => if timestamp ≠ pl.lastTimestamp + 100 then ([none], newResampler2 f0 pl.buf.length pl.targetRate timestamp) else ([], r)

/-- `onRealtimeFft` for the player's channel: what it adds to the output, and the player afterwards. `f0`, `fa`, `fb`: the filters of the time axis and of the two halves of the frequency axis.
models RealtimeSpectrogramPlayer.ts:55-87 -/
def SPlayer.packet {σ : Type} (p : Filter σ) (fuel : Nat) (f0 fa fb : σ) (pl : SPlayer σ) (d : FPacket Rat) : Option (List SPoint × SPlayer σ) :=
  (pl.axis.resample p fuel fa fb d.low d.high pl.buf).bind fun buf => buf.numbers.bind fun row =>
    ((pl.choose f0 d.timestamp).2.next p fuel row).map fun a =>
      ((pl.choose f0 d.timestamp).1 ++ a.1.map some,
        { pl with resampler := some a.2, buf := buf, output := ((pl.choose f0 d.timestamp).1 ++ a.1.map some).foldl CBuf.addLast pl.output, lastTimestamp := d.timestamp })

/-- what happens to a player: a spectrum of its channel, one of another channel, `getNewData` -/
inductive SOp
  | packet (d : FPacket Rat)
  | other (d : FPacket Rat)
  | getNewData

/-- what is seen of it: columns added to the output, and what `getNewData` returned -/
inductive SEv
  | added (x : SPoint)
  | got (l : List (Option SPoint))

/-- one step. models RealtimeSpectrogramPlayer.ts:55-58, 181-185 -/
def SPlayer.step {σ : Type} (p : Filter σ) (fuel : Nat) (f0 fa fb : σ) (pl : SPlayer σ) : SOp → Option (List SEv × SPlayer σ)
  | .packet d => (pl.packet p fuel f0 fa fb d).map fun a => (a.1.map .added, a.2)
  | .other _ => some ([], pl)
  | .getNewData => some ([.got pl.output.toArray], { pl with output := pl.output.clear })

/-- a history: everything seen -/
def SPlayer.run {σ : Type} (p : Filter σ) (fuel : Nat) (f0 fa fb : σ) (pl : SPlayer σ) : List SOp → Option (List SEv × SPlayer σ)
  | [] => some ([], pl)
  | o :: os => (pl.step p fuel f0 fa fb o).bind fun a => (a.2.run p fuel f0 fa fb os).map fun b => (a.1 ++ b.1, b.2)

end Verif.Ozys
