import Verif.Model.Entity
import Verif.Model.Multipart
/-! # The tests of the repository, run on the model

These are tests, no proofs: they compare the model with what the authors expect of the code. Every test of /repo/test encodes a body, decodes the bytes and
mostly compares the result with the body after encoding (`Encode` may change its receiver). Texts are left as they are instead of being converted to GB18030;
"now" is one fixed second. All of them come out on the model as the authors wrote them down. -/

namespace Verif.RepoTests

/-- Texts are not converted, compression adds a byte, local time is UTC+8. -/
def env : Env where
  gbEnc s := some s
  gbDec s := some s
  gzip s := some (31 :: s)
  gunzip s := match s with | 31 :: t => some t | _ => none
  tz := 28800

/-- The bytes of a text. -/
def str (s : String) : Bytes := s.toUTF8.toList

/-- `time.Now()`. -/
def now : Time := 1700000000

/-- The report in several tests. -/
def loc (status : UInt32) (xs : List (Option Extra)) : T0200 :=
  { alarm := 2342, status := status, lat := ⟨23562345, -6⟩, lng := ⟨-128323123, -6⟩, altitude := 2345, speed := 160, direction := 72, time := now, extras := xs }

/-- The extras in several tests. -/
def exs : List (Option Extra) :=
  ([.x01 10, .x2a 16, .x2b 10086, .x02 32, .x03 64, .x04 128, .x11 1 (some 121313), .x12 1 234 1, .x13 1006545 234 1, .x25 3344322, .x30 12, .x31 23] :
    List ExtraVal).map fun v => some (Extra.new v)

/-- The parameters in two tests. -/
def params : List Param :=
  [.setByte 0x84 24, .setBytes 0x110 [1, 2, 3, 4, 5, 6, 7, 8], .setUint16 0x31 100, .setUint32 0x46 64000, .setString env 0x83 (str "车牌号码")]

/-- test/t808_0x8600_test.go. -/
def circle (i : UInt32) : CircleArea :=
  { id := i, attr := 1, lat := ⟨123456789, -6⟩, lng := ⟨34567891, -6⟩, radius := 100, startTime := now, endTime := now, maxSpeed := 1024, duration := 60 }

/-- test/t808_0x8602_test.go. -/
def rect (i : UInt32) : RectArea :=
  { id := i, attr := 1, leftTopLat := ⟨123456523, -6⟩, leftTopLon := ⟨-23234212, -6⟩, rightBottomLat := ⟨23456534, -6⟩, rightBottomLon := ⟨-13456521, -6⟩,
    startTime := now, endTime := now, maxSpeed := 1024, duration := 60 }

/-- A modulus of 1024 bits (the tests use the one of a key in a file). -/
def modulus : Nat := 2 ^ 1023 + 12345

/-- The tests that compare the decoded body with the encoded one. -/
def compared : List Entity := [
    /- 0x0001 -/ .m0001 { replySerial := 1024, replyID := 123, result := 0 },
    /- 0x0002 -/ .m0002 {},
    /- 0x0003 -/ .m0003 {},
    /- 0x0100 -/ .m0100 { provinceID := 19, cityID := 19, manufactureID := str "test", model := str "t900", terminalID := str "abc123", plateColor := 45, licenseNo := str "asdfg阿伯吃得" },
    /- 0x0102 -/ .m0102 { authKey := str "ABC阿博茨" },
    /- 0x0104 -/ .m0104 { replySerial := 234, params := params },
    /- 0x0107 -/ .m0107 { terminalType := 123, manufactureID := str "wer", model := str "1231231", terminalID := str "t800", sim := str "8618202374929", hardwareVersion := str "v0.1.1", softwareVersion := str "v0.1.2", gnss := 23, comm := 34 },
    /- 0x0108 -/ .m0108 { type := 1, result := 2 },
    /- 0x0301 -/ .m0301 { eventID := 96 },
    /- 0x0302 -/ .m0302 { replySerial := 1234, answerID := 65 },
    /- 0x0303 -/ .m0303 { type := 65, flag := 1 },
    /- 0x0700 -/ .m0700 { replySerial := 1, cmd := 26, data := [1,3,5,7,9] },
    /- 0x0701 -/ .m0701 { size := 3875, content := [1,3,5,7,9] },
    /- 0x0704 -/ .m0704 { type := 1, items := [loc 8 []] },
    /- 0x0705 -/ .m0705 { receiveTime := 13457999000000, items := [⟨[0,0,0,0],[0,0,0,0,0,0,0,0]⟩, ⟨[0,0,0,0],[0,0,0,0,0,0,0,0]⟩] },
    /- 0x0800 -/ .m0800 { mediaID := 3456, type := 2, coding := 2, event := 23, channelID := 17 },
    /- 0x0802 -/ .m0802 { replySerial := 1234, items := [{ mediaID := 345, type := 0, channelID := 24, event := 12, location := loc 8 [] }] },
    /- 0x0805 -/ .m0805 { replySerial := 2342, result := 2, mediaIDs := [1232313, 213214, 213123123] },
    /- 0x0900 -/ .m0900 { type := 1, data := [0x34,0x45,0x23,0x45] },
    /- 0x0901 -/ .m0901 { uncompressed := List.replicate 768 0 },
    /- 0x8001 -/ .m8001 { replySerial := 1234, result := 3, replyID := 0x8103 },
    /- 0x8003 -/ .m8003 { msgSerial := 1234, packetIDs := [123,345,789] },
    /- 0x8100 -/ .m8100 { msgSerial := 1234, result := 3, authKey := str "鉴权码" },
    /- 0x8103 -/ .m8103 { params := params },
    /- 0x8104 -/ .m8104 {},
    /- 0x8105 -/ .m8105 { code := 1, text := str "adasd:测试" },
    /- 0x8106 -/ .m8106 { ids := [123,456,789] },
    /- 0x8107 -/ .m8107 {},
    /- 0x8108 -/ .m8108 { type := 1, manufactureID := str "abc12", version := str "10.1.1", size := 102400, data := [1,2,3,4] },
    /- 0x8201 -/ .m8201 {},
    /- 0x8202 -/ .m8202 { interval := 5000, expire := 200 },
    /- 0x8203 -/ .m8203 { msgSerial := 1024, type := 1231 },
    /- 0x8300 -/ .m8300 { code := 57, text := str "hello测试测试" },
    /- 0x8301 -/ .m8301 { type := 2, events := [⟨1, str "事件1"⟩, ⟨2, str "事件2"⟩, ⟨3, str "事件3"⟩] },
    /- 0x8302 -/ .m8302 { flag := 2, question := str "今天星期几？", answers := [⟨1, str "星期一"⟩, ⟨2, str "星期二"⟩, ⟨3, str "星期三"⟩] },
    /- 0x8303 -/ .m8303 { type := 3, items := [str "点播项1", str "点播项2", str "点播项3"] },
    /- 0x8304 -/ .m8304 { type := 65, content := str "测试test" },
    /- 0x8400 -/ .m8400 { flag := 1, number := str "+8619912345678" },
    /- 0x8401 -/ .m8401 { type := 3, contacts := [⟨3, str "+8619942351698", str "老王"⟩, ⟨3, str "+8619942351698", str "老王"⟩] },
    /- 0x8500 -/ .m8500 { flag := 1 },
    /- 0x8600 -/ .m8600 { action := 1, items := [circle 1, circle 2] },
    /- 0x8601 -/ .m8601 { ids := [123,456,789] },
    /- 0x8602 -/ .m8602 { action := 1, items := [rect 1, rect 2] },
    /- 0x8603 -/ .m8603 { ids := [123,456,789] },
    /- 0x8604 -/ .m8604 { id := 1, attr := 1, startTime := now, endTime := now, maxSpeed := 1024, duration := 60, vertexes := [⟨⟨123234561,-6⟩,⟨-23432567,-6⟩⟩, ⟨⟨23341098,-6⟩,⟨-12213435,-6⟩⟩] },
    /- 0x8605 -/ .m8605 { ids := [123,456,789] },
    /- 0x8606 -/ .m8606 { id := 1, attr := 123, startTime := now, endTime := now, points := [{ id := 1, sectionID := 1, lat := ⟨23562345,-6⟩, lng := ⟨-128323123,-6⟩, width := 15, attr := 11, timeTooLong := some 300, timeTooShort := some 60, maxSpeed := some 200, overSpeedDuration := some 25 }] },
    /- 0x8607 -/ .m8607 { ids := [123,456,789] },
    /- 0x8700 -/ .m8700 { cmd := 26, data := [1,3,5,7,9] },
    /- 0x8701 -/ .m8701 { cmd := 26, data := [1,3,5,7,9] },
    /- 0x8702 -/ .m8702 {},
    /- 0x8800 -/ .m8800 { mediaID := 1024, retryIDs := [123,456,789] },
    /- 0x8801 -/ .m8801 { channelID := 28, cmd := 456, duration := 360, save := 1, resolution := 5, quality := 50, lighting := 50, contrast := 50, saturability := 50, chroma := 50 },
    /- 0x8802 -/ .m8802 { type := 1, channelID := 56, event := 87, startTime := now, endTime := now },
    /- 0x8803 -/ .m8803 { type := 1, channelID := 56, event := 87, startTime := now, endTime := now, removeFlag := 1 },
    /- 0x8804 -/ .m8804 { cmd := 67, duration := 3500, save := 0, audioSampleRate := 0 },
    /- 0x8805 -/ .m8805 { mediaID := 10345, removeFlag := 1 },
    /- 0x8900 -/ .m8900 { type := 1, data := [0x34,0x45,0x23,0x45] },
    /- 0x0a00 -/ .m0a00 { publicKey := some ⟨some modulus, 65537⟩ },
    /- 0x8a00 -/ .m8a00 { publicKey := some ⟨some modulus, 65537⟩ }]

/-- The tests that only decode. -/
def decoded : List Entity := [
    /- 0x0200 -/ .m0200 (loc 0 exs),
    /- 0x0201 -/ .m0201 { replySerial := 123, result := loc 0 exs },
    /- 0x0500 -/ .m0500 { replySerial := 123, result := loc 0 exs },
    /- 0x0801 -/ .m0801 { mediaID := 1024, type := 1, coding := 0, event := 13, channelID := 28, location := loc 0 [], packet := some (List.replicate 512 0) }]

/-- test/t808_0x0702_test.go. -/
def driver : T0702 := { state := 21, time := now, icCardResult := 1, driverName := str "王师傅", number := str "NS12345678", companyName := str "机构名称", expiryDate := now }

/-- What a test finds: the body after `Encode`, and the decoded one. -/
def run (e : Entity) : Option (Entity × Entity) :=
  match e.encode env with
  | .ok (d, e') =>
    match Entity.decodeBody env e.msgID d with
    | .ok (e2, _) => some (e', e2)
    | _ => none
  | _ => none

example : compared.length = 60 ∧ (compared.all fun e => (run e).any fun x => x.1 = x.2) = true := by decide +kernel

example : decoded.length = 4 ∧ (decoded.all fun e => (run e).isSome) = true := by decide +kernel

/-- The authors leave out the date of expiry before they compare: it keeps the day only. -/
example : ((run (.m0702 driver)).any fun x => match x with
    | (.m0702 a, .m0702 b) => { b with expiryDate := a.expiryDate } = a ∧ b.expiryDate ≠ a.expiryDate
    | _ => false) = true := by decide +kernel

/-- The authors do not compare reports with extras, and rightly so: the decoded ones have lost their bytes (C19). -/
example : ((run (.m0200 (loc 0 exs))).any fun x => x.1 ≠ x.2) = true := by decide +kernel

/-- multipart_test.go: parts 2, 1 and 3 are written; then the upload is complete and can be merged (the test does not look at the content). -/
example : (do
    let m : Multipart := { icc := 19923476579, msgID := 0x0100, tag := 123456, sum := 3 }
    let fs := (m.write .ok 2 [3, 4] (fun _ => none)).1
    let fs := (m.write .ok 1 [1, 2] fs).1
    let fs := (m.write .ok 3 [5, 6] fs).1
    let full ← m.isFull fs
    let (_, r) ← m.merge .ok fs
    .ok (full, r) : Res (Bool × Option Bytes)) = .ok (true, some [1, 2, 3, 4, 5, 6]) := by decide +kernel

end Verif.RepoTests
