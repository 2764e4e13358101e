import Lean.Util.CollectAxioms
import Verif.Basic
import Verif.Model.Flash
import Verif.Props.Hamming
import Verif.Props.Records
import Verif.Props.Sectors
import Verif.Props.Directory
import Verif.Props.IdReuse
import Verif.Props.FileRead
import Verif.Props.Files
import Verif.Props.Iter
import Verif.Props.RwLock
import Verif.Props.Crc
import Verif.Props.ManagedErase
import Verif.Props.BitSlice
import Verif.Props.FixedPoint
import Verif.Props.Delta
import Verif.Props.DeltaLogger
import Verif.Props.Tagged
import Verif.Props.Ring
import Verif.Props.Radio
import Verif.Props.Telemetry
import Verif.Props.VlpClient
import Verif.Props.Can
import Verif.Props.FlightCore
import Verif.Props.PrimaryCore
import Verif.Props.Debounce
import Verif.Props.Avionics
import Verif.Props.AvionicsSafety
import Verif.Props.AvionicsMore
import Verif.Props.GroundTest
import Verif.Props.MovingAverage
import Verif.Props.SpeedFilter
import Verif.Props.Ticker
import Verif.Props.UnixClock
import Verif.Props.ZeroCopy
import Verif.Props.Rpc
import Verif.Props.ModuleBus
import Verif.Props.ModuleBusMaster
import Verif.Props.Nmea
import Verif.Props.Lut
import Verif.Props.OpenReader
import Verif.Props.ConsoleFiles
import Verif.Props.ConfigFile
import Verif.Props.BufferedLogger
import Verif.Props.Calibration
import Verif.Props.CalibrationExact
import Verif.Props.CalibrationFile
import Verif.Props.OpenFiles
import Verif.Props.LogFile
import Verif.Props.RingLog
import Verif.Props.RingLogCase
import Verif.Props.LogFull
import Verif.Props.Tiered
import Verif.Props.Export
import Verif.Props.StrainGauge
import Verif.Props.StrainGaugeCase
import Verif.Props.RingReplace
import Verif.Props.FairMutex
import Verif.Props.RpcChannel
import Verif.Props.WriteOnce
import Verif.Props.Indicator
import Verif.Props.StartUp
import Verif.Props.FlashIo
import Verif.Props.Buzzer
import Verif.Props.Vacuum
import Verif.Props.CircularBuffer
import Verif.Props.Resampler
import Verif.Props.StrainPlayer
import Verif.Props.OzysDatabase
import Verif.Props.Operator
import Verif.Props.DeviceName
import Verif.Props.LoraKey
import Verif.Props.TypedIo
import Verif.Props.Spectrogram
import Verif.Props.Resampler2D
import Verif.Props.StrainGraph
import Verif.Props.OzysDevices
import Verif.Props.OzysManager
import Verif.Props.OzysOff
import Verif.Props.SimClock
import Verif.Props.VirtSensor
import Verif.Props.VirtSerial
import Verif.Props.OzysFft
import Verif.Props.SpectrogramPlayer
import Verif.Props.FlashFault
import Verif.Props.DirFault
import Verif.Props.StatFlash
import Verif.Props.RecordFile
import Verif.Props.Keyframe
import Verif.Props.Choreography
import Verif.Props.WriteFile
import Verif.Props.ReadNyoom
import Verif.Props.SimLaunch
import Verif.Props.GraphMenu
import Verif.Props.SgBoard
import Verif.Props.SimSensors
import Verif.Props.SimChutes
import Verif.Props.CalibProgram
import Verif.Props.MasterSwitch
import Verif.Props.AppLayout
import Verif.Props.DebugFlashUi
/-
Checks during the build that no theorem of the development depends on an axiom other than the three standard ones.
-/
open Lean Elab Command

run_cmd do
  let env ← getEnv
  let mut used : NameSet := {}
  let mut n := 0
  for (name, info) in env.constants.map₁.toList do
    if (`Verif).isPrefixOf name then
      if info matches .thmInfo _ then
        n := n + 1
        for a in ← collectAxioms name do used := used.insert a
  for a in used do
    unless a ∈ [``propext, ``Classical.choice, ``Quot.sound] do throwError "axiom {a} is used"
  logInfo m!"{n} theorems, axioms used: {used.toList}"
