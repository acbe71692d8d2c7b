import Verif.Spec.Codec
import Verif.Model.Main

/-! # The unit tests of `/repo/tests`, restated for the model

These are not properties: they check, on the inputs that the project itself uses,
that the model does what the code is expected to do. The topics of all 256 group
addresses (`test_cmqttd.py` lines 56-95) are C59. -/

namespace CBus.Tests
open CBus CBus.Spec

/-- A decoded packet, with all its input consumed. -/
def decodes (s : String) (p : Packet) (checksum : Bool := true) (fromPci : Bool := true) : Prop :=
  decodePacket (ascii s) checksum true fromPci = .ok (some p, (ascii s).length)

instance (s p c f) : Decidable (decodes s p c f) := by unfold decodes; infer_instance

/-- `encode_packet()`. -/
def encodes (p : Packet) (s : String) : Prop := p.encodePacket = .ok (ascii s)

instance (p s) : Decidable (encodes p s) := by unfold encodes; infer_instance

/-! ## test_application.py -/

-- test_register_invalid_application
example : (registerApplication [-1] .lighting builtinRegistry).2 = .error .valueError ∧
    (registerApplication [0x100] .lighting builtinRegistry).2 = .error .valueError ∧
    getApplication (-1) = .error .keyError := by decide +kernel
-- test_register_duplicate_application
example : registerApplication [appLighting] .clock builtinRegistry = (builtinRegistry, .error .valueError) ∧
    getApplication appLighting = .ok .lighting := by decide +kernel
-- test_double_register_same
example : (registerApplication AppHandler.lighting.supported .lighting builtinRegistry).2 = .ok () := by decide +kernel

/-! ## test_cal.py -/

/-- GA 1 to 8 are off and the others are missing, from `start`. -/
def s9_1 (start n : Nat) : List GroupState :=
  (List.range n).map fun i => if 1 ≤ i + start ∧ i + start ≤ 8 then .off else .missing

def exstat (start n : Nat) : Packet :=
  .pp { prio := .class2, unit := 0x99, src := some 0x99, cals := [.extended false 0x38 start (.binary (s9_1 start n))] }

-- test_s9_1_exstat
example : decodes "86999900F9003800A8AA0200000000000000000000000000000000000000C3\r\n" (exstat 0 88) ∧
    encodes (exstat 0 88) "86999900F9003800A8AA0200000000000000000000000000000000000000C3" := by decide +kernel
example : decodes "86999900F900385800000000000000000000000000000000000000000000BF\r\n" (exstat 88 88) ∧
    encodes (exstat 88 88) "86999900F900385800000000000000000000000000000000000000000000BF" := by decide +kernel
example : decodes "86999900F70038B0000000000000000000000000000000000000000069\r\n" (exstat 176 80) ∧
    encodes (exstat 176 80) "86999900F70038B0000000000000000000000000000000000000000069" := by decide +kernel

-- test_p49_manchester_coding
example : manchesterDecode [0xaa, 0xaa] = .ok (some 0) ∧ manchesterDecode [0, 0] = .ok none ∧
    manchesterDecode [0x95, 0x99] = .ok (some 0x57) ∧ manchesterDecode [0x55, 0x55] = .ok (some 0xff) ∧
    manchesterEncode (some 0) = .ok [0xaa, 0xaa] ∧ manchesterEncode none = .ok [0, 0] ∧
    manchesterEncode (some 0x57) = .ok [0x95, 0x99] ∧ manchesterEncode (some 0xff) = .ok [0x55, 0x55] := by
  decide +kernel

def levels (start n : Nat) : Packet :=
  .pp { prio := .class2, unit := 0xff, src := some 0xff,
        cals := [.extended false 0x38 start (.level ((List.range n).map fun i =>
          if 1 ≤ i + start ∧ i + start ≤ 8 then some 0 else none))] }

-- test_level_response
example : decodes "86FFFF00F90738000000AAAAAAAAAAAAAAAAAAAAAAAAAAAAAAAA00000000A4\r\n" (levels 0 11) ∧
    encodes (levels 0 11) "86FFFF00F90738000000AAAAAAAAAAAAAAAAAAAAAAAAAAAAAAAA00000000A4" := by decide +kernel
example : decodes "86FFFF00F907380B0000000000000000000000000000000000000000000039\r\n" (levels 11 11) ∧
    encodes (levels 11 11) "86FFFF00F907380B0000000000000000000000000000000000000000000039" := by decide +kernel
example : decodes "86FFFF00F7073816000000000000000000000000000000000000000030\r\n" (levels 22 10) ∧
    encodes (levels 22 10) "86FFFF00F7073816000000000000000000000000000000000000000030" := by decide +kernel

-- test_manchester_api
example : manchesterEncode (some 0xff) [0, 0, 0, 0] = .ok [0x55, 0x55, 0, 0] ∧
    manchesterEncode (some 0) [0x55, 0x55, 0, 0] 2 = .ok [0x55, 0x55, 0xaa, 0xaa] ∧
    manchesterEncode none [0x55, 0x55, 0xaa, 0xaa] 1 = .ok [0x55, 0x55, 0xaa, 0xaa] ∧
    manchesterEncode (some 0x42) [0x55, 0x55, 0xaa, 0xaa] 10 = .error .indexError := by decide +kernel

/-! ## test_clock.py -/

def clock (sals : List SAL) (conf : Option UInt8 := some 0x67) : PM := { app := some 0xdf, sals, conf }

-- test_s23_13_1
example : decodes "\\05DF000D010A2B1700C2g\r" (.pm (clock [.clockUpdate (.time ⟨10, 43, 23, 0⟩)])) true false ∧
    encodes (.pm (clock [.clockUpdate (.time ⟨10, 43, 23, 0⟩)])) "05DF000D010A2B17FFC3" := by decide +kernel
-- test_s23_13_2
example : decodes "\\05DF000E0207D502190411g\r" (.pm (clock [.clockUpdate (.date ⟨2005, 2, 25⟩)])) true false ∧
    encodes (.pm (clock [.clockUpdate (.date ⟨2005, 2, 25⟩)])) "05DF000E0207D502190411" := by decide +kernel
-- test_s23_13_3
example : decodes "\\05DF00110308g\r" (.pm (clock [.clockRequest])) true false ∧
    encodes (.pm (clock [.clockRequest])) "05DF00110308" := by decide +kernel
-- test_unknown_object, first half (in the second the value of a SAL becomes neither a date nor a time, as no `ClockVal` is)
example : clockUpdateSalOf .other = .error .typeError := rfl
-- test_datetime_object
example :
    (do
      let p ← mkPM true .class4 none (clockUpdateSal ⟨⟨2019, 12, 31⟩, ⟨23, 59, 13, 0⟩⟩)
      let w ← (Packet.pm p).encodePacket
      decodePacket (ascii "\\" ++ w ++ ascii "g\r") true true false) =
    .ok (some (.pm (clock [.clockUpdate (.date ⟨2019, 12, 31⟩), .clockUpdate (.time ⟨23, 59, 13, 0⟩)])), 37) := by
  decide +kernel
-- test_invalid_clock_request
example : decodes "\\05DF0011010Ag\r" (.pm (clock [])) true false ∧
    decodes "\\05DF0011011103F6g\r" (.pm (clock [.clockRequest])) true false := by decide +kernel

/-! ## test_cmqttd.py -/

-- test_ga_range
example : gaRange.length = 256 ∧ gaRange.Nodup ∧ ∀ ga ∈ gaRange, checkGa ga = .ok () := by decide +kernel
-- test_invalid_topic_group_address
example : ∀ t ∈ ["homeassistant/light/cbus_not-a-number", "homeassistant/light/cbus_9000",
    "homeassistant/light/my_light", "light/my_light"],
    getTopicGroupAddress UniTable.ascii t.toList = .error .valueError := by decide +kernel
-- test_read_auth. `io.StringIO(data)` does not translate newlines, so the second one
-- has carriage returns.
example : ∀ f ∈ ["my_username\nmy_password\n", "my_username\r\nmy_password\r\n", "my_username\nmy_password",
    "my_username \n  my_password\n"],
    readAuth UniTable.ascii f.toList = ("my_username".toList, "my_password".toList) := by decide +kernel

/-! ## test_common.py -/

-- test_cbus_checksum
example : ∀ x ∈ (List.range 256), addChecksum [UInt8.ofNat x] =
    [UInt8.ofNat x, UInt8.ofNat (((x ^^^ 0xff) + 1) &&& 0xff)] := by decide +kernel
-- test_empty_checksum
example : addChecksum [] = [0] := by decide +kernel

/-! ## test_enable.py -/

-- test_s8_11
example : decodes "\\05CB0002378275g\r"
      (.pm { app := some 0xcb, sals := [.enableSet 0x37 0x82], conf := some 0x67 }) true false ∧
    encodes (.pm { app := some 0xcb, sals := [.enableSet 0x37 0x82] }) "05CB0002378275" := by decide +kernel

/-! ## test_identify.py -/

-- test_get_unit_type
example : decodes "\\0699002101\r" (.pp { checksum := false, unit := 0x99, cals := [.identify 1] }) false false ∧
    encodes (.pp { checksum := false, unit := 0x99, cals := [.identify 1] }) "0699002101" := by decide +kernel

/-! ## test_lighting.py -/

def lights (sals : List SAL) (conf : Option UInt8) : PM := { app := some 0x38, sals, conf }

-- test_s6_4
example : decodes "\\0538000108BAg\r" (.pm (lights [.lightOff 8] (some 0x67))) true false ∧
    encodes (.pm (lights [.lightOff 8] none)) "0538000108BA" := by decide +kernel
example : decodes "\\05380001087909090A25h\r"
      (.pm (lights [.lightOff 8, .lightOn 9, .lightTerminate 10] (some 0x68))) true false ∧
    encodes (.pm (lights [.lightOff 8, .lightOn 9, .lightTerminate 10] none)) "05380001087909090A25" := by
  decide +kernel
-- test_s2_11
example : decodes "\\0538007993B7j\r" (.pm (lights [.lightOn 0x93] (some 0x6a))) true false ∧
    encodes (.pm (lights [.lightOn 0x93] none)) "0538007993B7" := by decide +kernel
-- test_s9_1
example : decodes "\\053800792129i\r" (.pm (lights [.lightOn 0x21] (some 0x69))) true false ∧
    encodes (.pm (lights [.lightOn 0x21] none)) "053800792129" := by decide +kernel
example : decodes "\\0538000121A1k\r" (.pm (lights [.lightOff 0x21] (some 0x6b))) true false ∧
    encodes (.pm (lights [.lightOff 0x21] none)) "0538000121A1" := by decide +kernel
example : decodes "\\0538000A217F19l\r" (.pm (lights [.lightRamp 0x21 4 (.int 127)] (some 0x6c))) true false ∧
    encodes (.pm (lights [.lightRamp 0x21 4 (.int 127)] none)) "0538000A217F19" := by decide +kernel
-- test_lighting_encode_decode
example :
    (do
      let w ← (Packet.pm { app := some 0x38, sals := [.lightOn 27], src := some 5 }).encodePacket
      decodePacket (w ++ ascii "\r\n")) =
    .ok (some (.pm { app := some 0x38, sals := [.lightOn 27], src := some 5 }), 16) := by decide +kernel
-- test_lighting_encode_decode_client
example :
    (do
      let w ← (Packet.pm { app := some 0x38, sals := [.lightOn 27] }).encodePacket
      decodePacket (ascii "\\" ++ w ++ ascii "\r") true true false) =
    .ok (some (.pm { app := some 0x38, sals := [.lightOn 27] }), 14) := by decide +kernel
-- test_invalid_ga
example : mkLightOn 999 = .error .valueError ∧ mkLightOff (-1) = .error .valueError := by decide +kernel
-- test_slow_ramp
example : (SAL.lightRamp 1 (18 * 60) (.int 255)).encode = (SAL.lightRamp 1 (17 * 60) (.int 255)).encode ∧
    (SAL.lightRamp 1 (17 * 60) (.int 255)).encode ≠ .error .valueError := by decide +kernel
-- test_brightness_bounds
example : (SAL.lightRamp 1 10 (.int (-1))).encode = .error .valueError ∧
    (SAL.lightRamp 1 10 (.int 256)).encode = .error .valueError := by decide +kernel
-- test_issue2
example : decodes "05063800BD\r\n" (.pm { app := some 0x38, src := some 6 }) := by decide +kernel

/-! ## test_pm_packet.py -/

-- test_s4_2_9_2_1
example : decodes "\\0538000108BAg\r" (.pm { app := some 0x38, sals := [.lightOff 8], conf := some 0x67 }) true false ∧
    encodes (.pm { app := some 0x38, sals := [.lightOff 8], conf := some 0x67 }) "0538000108BA" := by decide +kernel
-- test_s4_2_9_2_2
example : decodes "\\05FF007A38004Ah\r"
      (.pm { app := some 0xff, sals := [.statusRequest false 0 0x38], conf := some 0x68 }) true false ∧
    encodes (.pm { app := some 0xff, sals := [.statusRequest false 0 0x38] }) "05FF007A38004A" := by decide +kernel
-- test_invalid_multiple_application_sal
example : mkPM true .class4 none [.lightOff 1, .statusRequest true 1 0x38] = .error .valueError := by decide +kernel
-- test_remove_sals
example : (mkPM true .class4 none [.lightOff 1]).map (fun p =>
      let q := (p.clearSal.appendSal (.statusRequest true 1 0x38)).1
      (p.sals.length, p.clearSal.sals.length, q.sals.length, (q.appendSal (.lightOff 1)).2,
        (q.appendSal (.lightOff 1)).1.sals.length)) =
    .ok (1, 0, 1, .error .valueError, 1) := by decide +kernel
-- test_invalid_sal
example : (mkPM true .class4 none []).bind PM.encode = .error .valueError ∧
    PM.encode { app := some 0x100 } = .error .valueError := by decide +kernel

/-! ## test_reply.py -/

-- test_s9_2
example : decodes "8604990082300328\r\n"
      (.pp { prio := .class2, unit := 0x99, src := some 4, cals := [.reply 0x30 [3]] }) ∧
    encodes (.pp { prio := .class2, unit := 0x99, src := some 4, cals := [.reply 0x30 [3]] }) "8604990082300328" := by
  decide +kernel

/-! ## test_special_packet.py -/

-- test_power_on, test_error, test_confirmation
example : decodePacket (ascii "++") = .ok (some .powerOn, 1) ∧ encodes .powerOn "++" ∧
    decodePacket (ascii "!") = .ok (some .pciError, 1) ∧ encodes .pciError "!" ∧
    decodes "g." (.confirmation (ascii "g") true) := by decide +kernel
-- test_reset_packet, test_toolkit_null_bug, test_smart_connect, test_discard
example : decodePacket (ascii "~~~") true true false = .ok (some .reset, 1) ∧
    decodePacket (ascii "null\r") true true false = .ok (none, 4) ∧
    decodes "|\r" .smartConnect true false ∧ decodes "||\r" .smartConnect true false ∧
    decodePacket (ascii "hello?\\053800792129i\r") true true false = .ok (none, 6) := by decide +kernel

/-! ## test_temperature.py -/

-- test_s9_11
example : decodes "\\051900020564g\r"
      (.pm { checksum := false, app := some 0x19, sals := [.temperature 5 (.flt 25)], conf := some 0x67 }) false false ∧
    encodes (.pm { app := some 0x19, sals := [.temperature 5 (.flt 25)] }) "05190002056477" := by decide +kernel
-- test_temperature_encode_decode
example :
    (do
      let w ← (Packet.pm { app := some 0x19, src := some 5,
                           sals := [.temperature 10 (.flt (1 / 2)), .temperature 11 (.int 56)] }).encodePacket
      decodePacket (w ++ ascii "\r\n")) =
    .ok (some (.pm { app := some 0x19, src := some 5,
                     sals := [.temperature 10 (.flt (1 / 2)), .temperature 11 (.flt 56)] }), 24) := by decide +kernel

end CBus.Tests
