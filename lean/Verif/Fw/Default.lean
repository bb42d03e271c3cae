import Verif.Fw.Types

/-! The configuration shipped with the firmware (`firmware/chrumm/config.h`), used only for the
concrete examples beside the theorems: the theorems hold for every configuration. -/

namespace Chrumm.Fw

/-- `MATRIX_BASE_LAYER`, config.h:24-29 with the codes of usage.h:7-190 (5 rows of 13). -/
def baseLayer : List Nat :=
  [0x070029, 0x07001E, 0x07001F, 0x070020, 0x070021, 0x070022, 0x070023, 0x070024, 0x070025, 0x070026, 0x070027, 0x07002D, 0x07002E,
   0x07002B, 0x070014, 0x07001A, 0x070008, 0x070015, 0x070017, 0x07001C, 0x070018, 0x07000C, 0x070012, 0x070013, 0x07002F, 0x070030,
   0x0C0097, 0x070004, 0x070016, 0x070007, 0x070009, 0x07000A, 0x07000B, 0x07000D, 0x07000E, 0x07000F, 0x070033, 0x070034, 0x070031,
   0x0700E1, 0x07001D, 0x07001B, 0x070006, 0x070019, 0x070005, 0x070011, 0x070010, 0x070036, 0x070037, 0x070038, 0x070052, 0x0700E5,
   0x0700E0, 0x070000, 0x0700E3, 0x0700E2, 0x07002C, 0x07002A, 0x070028, 0x07002C, 0x0700E6, 0x07004C, 0x070050, 0x070051, 0x07004F]

/-- `MATRIX_FN_LAYER`, config.h:31-36. -/
def fnLayer : List Nat :=
  [0x070035, 0x070040, 0x070041, 0x070042, 0x070043, 0x070044, 0x070045, 0x07005F, 0x070060, 0x070061, 0x070056, 0x07002A, 0x070029,
   0x070039, 0x07003A, 0x07003B, 0x07003C, 0x07003D, 0x07003E, 0x07003F, 0x07005C, 0x07005D, 0x07005E, 0x070057, 0x0700B6, 0x0700B7,
   0x0C0097, 0x0C00B0, 0x0C00B6, 0x0C00B1, 0x0C00B5, 0x0C00B7, 0x070000, 0x070059, 0x07005A, 0x07005B, 0x070054, 0x070000, 0x070000,
   0x0700E1, 0x000000, 0x070000, 0x0C0192, 0x070000, 0x07007F, 0x070053, 0x070062, 0x070063, 0x070058, 0x070055, 0x07004B, 0x0700E5,
   0x0700E0, 0x070000, 0x0700E3, 0x0700E2, 0x07002C, 0x07002A, 0x070028, 0x07002C, 0x0700E6, 0x070049, 0x07004A, 0x07004E, 0x07004D]

/-- config.h:9-54 as shipped. -/
def defaultCfg : Cfg where
  rows := 5
  cols := 13
  rowPins := [2, 3, 4, 5, 8]
  ledPin := 25
  debounceTicks := 8
  layers := fun l => if l then fnLayer else baseLayer
  fnKeyTaps := 2
  bootKeyTaps := 3
  ccw := 0x070081
  cw := 0x070080
  keypressTicks := 30
  blinkTicks := 500

end Chrumm.Fw
