/-
The file type of every logger and configuration file: firmware-common/src/common/file_types.rs (all of it).
-/
namespace Verif.FileTypes

/-- file_types.rs:3-28, name and value -/
def table : List (String × Nat) := [
  ("DEVICE_CONFIG_FILE_TYPE", 0),
  ("BENCHMARK_FILE_TYPE", 2),
  ("CALIBRATION_FILE_TYPE", 3),
  ("AVIONICS_SENSORS_FILE_TYPE", 4),
  ("AVIONICS_LOG_FILE_TYPE", 5),
  ("AVIONICS_UP_RIGHT_FILE_TYPE", 6),
  ("GROUND_TEST_LOG_FILE_TYPE", 7),
  ("FLIGHT_PROFILE_FILE_TYPE", 8),
  ("AVIONICS_GPS_LOGGER_TIER_1", 9),
  ("AVIONICS_GPS_LOGGER_TIER_2", 10),
  ("AVIONICS_LOW_G_IMU_LOGGER_TIER_1", 9),
  ("AVIONICS_LOW_G_IMU_LOGGER_TIER_2", 10),
  ("AVIONICS_HIGH_G_IMU_LOGGER_TIER_1", 11),
  ("AVIONICS_HIGH_G_IMU_LOGGER_TIER_2", 12),
  ("AVIONICS_BARO_LOGGER_TIER_1", 13),
  ("AVIONICS_BARO_LOGGER_TIER_2", 14),
  ("AVIONICS_MAG_LOGGER_TIER_1", 15),
  ("AVIONICS_MAG_LOGGER_TIER_2", 16),
  ("AVIONICS_BATTERY_LOGGER_TIER_1", 17),
  ("AVIONICS_BATTERY_LOGGER_TIER_2", 18),
  ("UPRIGHT_VECTOR_AND_GYRO_OFFSET_FILE_TYPE", 19),
  ("GROUND_TEST_BARO_FILE_TYPE", 20),
  ("VACUUM_TEST_LOG_FILE_TYPE", 21),
  ("VACUUM_TEST_BARO_LOGGER", 22),
  ("SG_READINGS", 24),
  ("SG_BATTERY_LOGGER", 25)]

/-- file_types.rs:11 -/
def gpsTier1 : Nat := 9
/-- file_types.rs:12 -/
def gpsTier2 : Nat := 10
/-- file_types.rs:13 -/
def lowGImuTier1 : Nat := 9
/-- file_types.rs:14 -/
def lowGImuTier2 : Nat := 10

/-- `segments_per_ring` of the first and second tier of all sensor loggers. avionics/mod.rs:97 and 113 -/
def tierSegments : Nat × Nat := (6, 10)

/-- the types removed by `DeleteLogsPacket`. avionics/mod.rs:401-419 -/
def deleteLogs (typ : Nat) : Bool := [2, 4, 5, 7, 9, 10, 9, 10, 11, 12, 13, 14, 15, 16, 17, 18].contains typ

end Verif.FileTypes
