import Verif.Model.Input

/-! Models `/repo/src/crc.rs`: the checksum-computing readers. -/

namespace Claxon

/-- crc.rs:13-31, verbatim. -/
def CRC8_TABLE : List U8 :=
  [
   0x00#8, 0x07#8, 0x0e#8, 0x09#8, 0x1c#8, 0x1b#8, 0x12#8, 0x15#8, 0x38#8, 0x3f#8, 0x36#8, 0x31#8,
   0x24#8, 0x23#8, 0x2a#8, 0x2d#8, 0x70#8, 0x77#8, 0x7e#8, 0x79#8, 0x6c#8, 0x6b#8, 0x62#8, 0x65#8,
   0x48#8, 0x4f#8, 0x46#8, 0x41#8, 0x54#8, 0x53#8, 0x5a#8, 0x5d#8, 0xe0#8, 0xe7#8, 0xee#8, 0xe9#8,
   0xfc#8, 0xfb#8, 0xf2#8, 0xf5#8, 0xd8#8, 0xdf#8, 0xd6#8, 0xd1#8, 0xc4#8, 0xc3#8, 0xca#8, 0xcd#8,
   0x90#8, 0x97#8, 0x9e#8, 0x99#8, 0x8c#8, 0x8b#8, 0x82#8, 0x85#8, 0xa8#8, 0xaf#8, 0xa6#8, 0xa1#8,
   0xb4#8, 0xb3#8, 0xba#8, 0xbd#8, 0xc7#8, 0xc0#8, 0xc9#8, 0xce#8, 0xdb#8, 0xdc#8, 0xd5#8, 0xd2#8,
   0xff#8, 0xf8#8, 0xf1#8, 0xf6#8, 0xe3#8, 0xe4#8, 0xed#8, 0xea#8, 0xb7#8, 0xb0#8, 0xb9#8, 0xbe#8,
   0xab#8, 0xac#8, 0xa5#8, 0xa2#8, 0x8f#8, 0x88#8, 0x81#8, 0x86#8, 0x93#8, 0x94#8, 0x9d#8, 0x9a#8,
   0x27#8, 0x20#8, 0x29#8, 0x2e#8, 0x3b#8, 0x3c#8, 0x35#8, 0x32#8, 0x1f#8, 0x18#8, 0x11#8, 0x16#8,
   0x03#8, 0x04#8, 0x0d#8, 0x0a#8, 0x57#8, 0x50#8, 0x59#8, 0x5e#8, 0x4b#8, 0x4c#8, 0x45#8, 0x42#8,
   0x6f#8, 0x68#8, 0x61#8, 0x66#8, 0x73#8, 0x74#8, 0x7d#8, 0x7a#8, 0x89#8, 0x8e#8, 0x87#8, 0x80#8,
   0x95#8, 0x92#8, 0x9b#8, 0x9c#8, 0xb1#8, 0xb6#8, 0xbf#8, 0xb8#8, 0xad#8, 0xaa#8, 0xa3#8, 0xa4#8,
   0xf9#8, 0xfe#8, 0xf7#8, 0xf0#8, 0xe5#8, 0xe2#8, 0xeb#8, 0xec#8, 0xc1#8, 0xc6#8, 0xcf#8, 0xc8#8,
   0xdd#8, 0xda#8, 0xd3#8, 0xd4#8, 0x69#8, 0x6e#8, 0x67#8, 0x60#8, 0x75#8, 0x72#8, 0x7b#8, 0x7c#8,
   0x51#8, 0x56#8, 0x5f#8, 0x58#8, 0x4d#8, 0x4a#8, 0x43#8, 0x44#8, 0x19#8, 0x1e#8, 0x17#8, 0x10#8,
   0x05#8, 0x02#8, 0x0b#8, 0x0c#8, 0x21#8, 0x26#8, 0x2f#8, 0x28#8, 0x3d#8, 0x3a#8, 0x33#8, 0x34#8,
   0x4e#8, 0x49#8, 0x40#8, 0x47#8, 0x52#8, 0x55#8, 0x5c#8, 0x5b#8, 0x76#8, 0x71#8, 0x78#8, 0x7f#8,
   0x6a#8, 0x6d#8, 0x64#8, 0x63#8, 0x3e#8, 0x39#8, 0x30#8, 0x37#8, 0x22#8, 0x25#8, 0x2c#8, 0x2b#8,
   0x06#8, 0x01#8, 0x08#8, 0x0f#8, 0x1a#8, 0x1d#8, 0x14#8, 0x13#8, 0xae#8, 0xa9#8, 0xa0#8, 0xa7#8,
   0xb2#8, 0xb5#8, 0xbc#8, 0xbb#8, 0x96#8, 0x91#8, 0x98#8, 0x9f#8, 0x8a#8, 0x8d#8, 0x84#8, 0x83#8,
   0xde#8, 0xd9#8, 0xd0#8, 0xd7#8, 0xc2#8, 0xc5#8, 0xcc#8, 0xcb#8, 0xe6#8, 0xe1#8, 0xe8#8, 0xef#8,
   0xfa#8, 0xfd#8, 0xf4#8, 0xf3#8]

/-- crc.rs:33-57, verbatim. -/
def CRC16_TABLE : List U16 :=
  [
   0x0000#16, 0x8005#16, 0x800f#16, 0x000a#16, 0x801b#16, 0x001e#16, 0x0014#16, 0x8011#16, 0x8033#16, 0x0036#16,
   0x003c#16, 0x8039#16, 0x0028#16, 0x802d#16, 0x8027#16, 0x0022#16, 0x8063#16, 0x0066#16, 0x006c#16, 0x8069#16,
   0x0078#16, 0x807d#16, 0x8077#16, 0x0072#16, 0x0050#16, 0x8055#16, 0x805f#16, 0x005a#16, 0x804b#16, 0x004e#16,
   0x0044#16, 0x8041#16, 0x80c3#16, 0x00c6#16, 0x00cc#16, 0x80c9#16, 0x00d8#16, 0x80dd#16, 0x80d7#16, 0x00d2#16,
   0x00f0#16, 0x80f5#16, 0x80ff#16, 0x00fa#16, 0x80eb#16, 0x00ee#16, 0x00e4#16, 0x80e1#16, 0x00a0#16, 0x80a5#16,
   0x80af#16, 0x00aa#16, 0x80bb#16, 0x00be#16, 0x00b4#16, 0x80b1#16, 0x8093#16, 0x0096#16, 0x009c#16, 0x8099#16,
   0x0088#16, 0x808d#16, 0x8087#16, 0x0082#16, 0x8183#16, 0x0186#16, 0x018c#16, 0x8189#16, 0x0198#16, 0x819d#16,
   0x8197#16, 0x0192#16, 0x01b0#16, 0x81b5#16, 0x81bf#16, 0x01ba#16, 0x81ab#16, 0x01ae#16, 0x01a4#16, 0x81a1#16,
   0x01e0#16, 0x81e5#16, 0x81ef#16, 0x01ea#16, 0x81fb#16, 0x01fe#16, 0x01f4#16, 0x81f1#16, 0x81d3#16, 0x01d6#16,
   0x01dc#16, 0x81d9#16, 0x01c8#16, 0x81cd#16, 0x81c7#16, 0x01c2#16, 0x0140#16, 0x8145#16, 0x814f#16, 0x014a#16,
   0x815b#16, 0x015e#16, 0x0154#16, 0x8151#16, 0x8173#16, 0x0176#16, 0x017c#16, 0x8179#16, 0x0168#16, 0x816d#16,
   0x8167#16, 0x0162#16, 0x8123#16, 0x0126#16, 0x012c#16, 0x8129#16, 0x0138#16, 0x813d#16, 0x8137#16, 0x0132#16,
   0x0110#16, 0x8115#16, 0x811f#16, 0x011a#16, 0x810b#16, 0x010e#16, 0x0104#16, 0x8101#16, 0x8303#16, 0x0306#16,
   0x030c#16, 0x8309#16, 0x0318#16, 0x831d#16, 0x8317#16, 0x0312#16, 0x0330#16, 0x8335#16, 0x833f#16, 0x033a#16,
   0x832b#16, 0x032e#16, 0x0324#16, 0x8321#16, 0x0360#16, 0x8365#16, 0x836f#16, 0x036a#16, 0x837b#16, 0x037e#16,
   0x0374#16, 0x8371#16, 0x8353#16, 0x0356#16, 0x035c#16, 0x8359#16, 0x0348#16, 0x834d#16, 0x8347#16, 0x0342#16,
   0x03c0#16, 0x83c5#16, 0x83cf#16, 0x03ca#16, 0x83db#16, 0x03de#16, 0x03d4#16, 0x83d1#16, 0x83f3#16, 0x03f6#16,
   0x03fc#16, 0x83f9#16, 0x03e8#16, 0x83ed#16, 0x83e7#16, 0x03e2#16, 0x83a3#16, 0x03a6#16, 0x03ac#16, 0x83a9#16,
   0x03b8#16, 0x83bd#16, 0x83b7#16, 0x03b2#16, 0x0390#16, 0x8395#16, 0x839f#16, 0x039a#16, 0x838b#16, 0x038e#16,
   0x0384#16, 0x8381#16, 0x0280#16, 0x8285#16, 0x828f#16, 0x028a#16, 0x829b#16, 0x029e#16, 0x0294#16, 0x8291#16,
   0x82b3#16, 0x02b6#16, 0x02bc#16, 0x82b9#16, 0x02a8#16, 0x82ad#16, 0x82a7#16, 0x02a2#16, 0x82e3#16, 0x02e6#16,
   0x02ec#16, 0x82e9#16, 0x02f8#16, 0x82fd#16, 0x82f7#16, 0x02f2#16, 0x02d0#16, 0x82d5#16, 0x82df#16, 0x02da#16,
   0x82cb#16, 0x02ce#16, 0x02c4#16, 0x82c1#16, 0x8243#16, 0x0246#16, 0x024c#16, 0x8249#16, 0x0258#16, 0x825d#16,
   0x8257#16, 0x0252#16, 0x0270#16, 0x8275#16, 0x827f#16, 0x027a#16, 0x826b#16, 0x026e#16, 0x0264#16, 0x8261#16,
   0x0220#16, 0x8225#16, 0x822f#16, 0x022a#16, 0x823b#16, 0x023e#16, 0x0234#16, 0x8231#16, 0x8213#16, 0x0216#16,
   0x021c#16, 0x8219#16, 0x0208#16, 0x820d#16, 0x8207#16, 0x0202#16]

/-- crc.rs:62-65. -/
structure Crc8Reader (σ : Type) where
  inner : σ
  state : U8

/-- crc.rs:70-73. -/
structure Crc16Reader (σ : Type) where
  inner : σ
  state : U16

/-- crc.rs:90-92. -/
def crc8Update (state byte : U8) : Res U8 := index CRC8_TABLE (state ^^^ byte).toNat

/-- crc.rs:110-112. -/
def crc16Update (state : U16) (byte : U8) : Res U16 := do
  let t ← index CRC16_TABLE ((state >>> 8).setWidth 8 ^^^ byte).toNat
  pure ((state <<< 8) ^^^ t)

namespace Crc8Reader

/-- crc.rs:77-82. -/
def new {σ : Type} (inner : σ) : Crc8Reader σ := { inner := inner, state := 0#8 }

/-- crc.rs:85-87. -/
def crc {σ : Type} (r : Crc8Reader σ) : U8 := r.state

variable {σ : Type} [ReadBytes σ]

/-- `self.inner` as a sub-reader. (crc.rs:118, 128) -/
def onInner {α : Type} (m : Dec σ α) : Dec (Crc8Reader σ) α :=
  Dec.zoom Crc8Reader.inner (fun i r => { r with inner := i }) m

/-- crc.rs:90-92 `update_state`. -/
def updateState (byte : U8) : Dec (Crc8Reader σ) Unit := do
  let r ← Dec.get
  let s ← crc8Update r.state byte
  Dec.set { r with state := s }

/-- crc.rs:117-125. -/
def readU8 : Dec (Crc8Reader σ) U8 := do
  let byte ← onInner ReadBytes.readU8
  updateState byte
  pure byte

/-- crc.rs:127-136. -/
def readU8OrEof : Dec (Crc8Reader σ) (Option U8) := do
  match ← onInner ReadBytes.readU8OrEof with
  | some byte => do
    updateState byte
    pure (some byte)
  | none => pure none

/-- crc.rs:115-145. `read_into` and `skip` panic. -/
instance : ReadBytes (Crc8Reader σ) where
  readU8 := readU8
  readU8OrEof := readU8OrEof
  readInto := fun _ => Dec.fail (.panic .explicit)
  skip := fun _ => Dec.fail (.panic .explicit)

end Crc8Reader

namespace Crc16Reader

/-- crc.rs:97-102. -/
def new {σ : Type} (inner : σ) : Crc16Reader σ := { inner := inner, state := 0#16 }

/-- crc.rs:105-107. -/
def crc {σ : Type} (r : Crc16Reader σ) : U16 := r.state

variable {σ : Type} [ReadBytes σ]

/-- `self.inner` as a sub-reader. (crc.rs:150, 160) -/
def onInner {α : Type} (m : Dec σ α) : Dec (Crc16Reader σ) α :=
  Dec.zoom Crc16Reader.inner (fun i r => { r with inner := i }) m

/-- crc.rs:110-112 `update_state`. -/
def updateState (byte : U8) : Dec (Crc16Reader σ) Unit := do
  let r ← Dec.get
  let s ← crc16Update r.state byte
  Dec.set { r with state := s }

/-- crc.rs:149-157. -/
def readU8 : Dec (Crc16Reader σ) U8 := do
  let byte ← onInner ReadBytes.readU8
  updateState byte
  pure byte

/-- crc.rs:159-168. -/
def readU8OrEof : Dec (Crc16Reader σ) (Option U8) := do
  match ← onInner ReadBytes.readU8OrEof with
  | some byte => do
    updateState byte
    pure (some byte)
  | none => pure none

/-- crc.rs:147-177. `read_into` and `skip` panic. -/
instance : ReadBytes (Crc16Reader σ) where
  readU8 := readU8
  readU8OrEof := readU8OrEof
  readInto := fun _ => Dec.fail (.panic .explicit)
  skip := fun _ => Dec.fail (.panic .explicit)

end Crc16Reader

end Claxon
