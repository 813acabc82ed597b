import Verif.Tests.Checks
import Verif.Cursor.Model

/-!
# The unit tests of `llvm-bitcursor`, run on the model

Each test is translated statement by statement and evaluated by the kernel, in both build profiles. These are tests of the
model, not proofs of anything about the code: they show that the model does what the authors of the code observed it to do.
-/

namespace Verif.Tests

/-- `llvm-bitcursor/src/lib.rs:422-424`: `test_new_with_len_invalid_length`. -/
example : BothProfiles (fun _ => do
    failed (Cursor.newWithLen [0xff, 0xee] 3)) := by decide +kernel

/-- `llvm-bitcursor/src/lib.rs:427-452`: `test_read_basic`. -/
example : BothProfiles (fun _ => do
    let c := Cursor.new [0b00011011]
    guard (c.bitLen = 8)
    guard (c.byteLen = 1)
    guard (c.tellBit = 0)
    guard (c.tellByte = 0)
    let c ← gives (Cursor.read 2 c) 0b11
    guard (c.tellBit = 2)
    guard (c.tellByte = 0)
    let c ← gives (Cursor.read 2 c) 0b10
    guard (c.tellBit = 4)
    guard (c.tellByte = 0)
    let c ← gives (Cursor.read 2 c) 0b01
    guard (c.tellBit = 6)
    guard (c.tellByte = 0)
    let c ← gives (Cursor.read 2 c) 0b00
    guard (c.tellBit = 8)
    guard (c.tellByte = 1)
    let _ ← err (Cursor.read 1 c)
    pure ()) := by decide +kernel

/-- `llvm-bitcursor/src/lib.rs:456-464`: `test_invalid_reads`. -/
example : BothProfiles (fun pf => do
    let c := Cursor.new [0xAA, 0xBB, 0xCC, 0xDD, 0xEE, 0xFF, 0x11, 0x22]
    let c ← err (Cursor.readVbr pf 33 c)
    let _ ← err (Cursor.read 64 c)
    pure ()) := by decide +kernel

/-- `llvm-bitcursor/src/lib.rs:467-476`: `test_read_multiple_sizes`. -/
example : BothProfiles (fun _ => do
    let c := Cursor.new [0xAA, 0xBB, 0xCC, 0b10010101]
    let c ← gives (Cursor.read 24 c) 0xCCBBAA
    let c ← gives (Cursor.read 5 c) 0b10101
    let c ← gives (Cursor.read 3 c) 0b100
    let _ ← err (Cursor.read 1 c)
    pure ()) := by decide +kernel

/-- `llvm-bitcursor/src/lib.rs:479-485`: `test_read_bounds`. -/
example : BothProfiles (fun _ => do
    let c := Cursor.new [0xAA]
    let c ← err (Cursor.read 0 c)
    let _ ← err (Cursor.read 65 c)
    pure ()) := by decide +kernel

/-- `llvm-bitcursor/src/lib.rs:488-492`: `test_read_llvm_wrapper_magic`. -/
example : BothProfiles (fun _ => do
    let c := Cursor.new [0xde, 0xc0, 0x17, 0x0b]
    let _ ← gives (Cursor.read 32 c) 0x0B17C0DE
    pure ()) := by decide +kernel

/-- `llvm-bitcursor/src/lib.rs:495-499`: `test_read_llvm_raw_magic`. -/
example : BothProfiles (fun _ => do
    let c := Cursor.new [66, 67, 0xc0, 0xde]
    let _ ← gives (Cursor.read 32 c) 0xdec04342
    pure ()) := by decide +kernel

/-- `llvm-bitcursor/src/lib.rs:502-511`: `test_read_across_blocks`. -/
example : BothProfiles (fun _ => do
    let c := Cursor.new [0x11, 0x22, 0x33, 0x44, 0x55, 0x66, 0x77, 0x88, 0x11, 0x22, 0x33, 0x44, 0x55, 0x66, 0x77, 0x88]
    let c ← gives (Cursor.read 56 c) 0x77665544332211
    let _ ← gives (Cursor.read 24 c) 0x221188
    pure ()) := by decide +kernel

/-- `llvm-bitcursor/src/lib.rs:514-525`: `test_read_across_blocks_unaligned`. -/
example : BothProfiles (fun _ => do
    let c := Cursor.new [0x11, 0x22, 0x33, 0x44, 0x55, 0x66, 0x77, 0b11111111, 0b00011001, 0x22, 0x33, 0x44, 0x55, 0x66, 0x77, 0x88]
    let c ← gives (Cursor.read 56 c) 0x77665544332211
    let c ← gives (Cursor.read 5 c) 0b11111
    let c ← gives (Cursor.read 5 c) 0b01111
    let _ ← gives (Cursor.read 6 c) 0b000110
    pure ()) := by decide +kernel

/-- `llvm-bitcursor/src/lib.rs:528-544`: `test_read_and_align`. -/
example : BothProfiles (fun _ => do
    let c := Cursor.new [0x11, 0x22, 0x33, 0x44, 0x55, 0x66, 0x77, 0b11111111, 0b00011001, 0x22, 0x33, 0x44, 0x55, 0x66, 0x77, 0x88]
    let c ← gives (Cursor.read 56 c) 0x77665544332211
    let c ← gives (Cursor.read 5 c) 0b11111
    let c ← gives (Cursor.read 5 c) 0b01111
    let c := c.align32
    let c ← gives (Cursor.read 8 c) 0x55
    let c ← gives (Cursor.read 16 c) 0x7766
    let c ← gives (Cursor.read 5 c) 0b01000
    let c ← gives (Cursor.read 3 c) 0b100
    let _ ← err (Cursor.read 1 c)
    pure ()) := by decide +kernel

/-- `llvm-bitcursor/src/lib.rs:547-552`: `test_read_as`. -/
example : BothProfiles (fun _ => do
    let c := Cursor.new [0xAA, 0xBB, 0xCC, 0xDD]
    let c ← gives (Cursor.readAs .u16 16 c) 0xBBAA
    let _ ← gives (Cursor.readAs .u32 16 c) 0xDDCC
    pure ()) := by decide +kernel

/-- `llvm-bitcursor/src/lib.rs:555-561`: `test_read_as_bounds`. -/
example : BothProfiles (fun _ => do
    let c := Cursor.new [0xFF, 0xFF, 0xFF, 0xFF]
    let _ ← err (Cursor.readAs .u16 17 c)
    pure ()) := by decide +kernel

/-- `llvm-bitcursor/src/lib.rs:564-575`: `test_read_exact`. -/
example : BothProfiles (fun _ => do
    let c := Cursor.new [0xAA, 0xBB, 0xCC, 0xDD, 0xEE]
    let c ← gives (Cursor.readExact .u32 c) 0xDDCCBBAA
    guard (c.tellBit = 32)
    guard (c.tellByte = 4)
    let c ← gives (Cursor.readExact .u8 c) 0xEE
    guard (c.tellBit = 40)
    guard (c.tellByte = 5)) := by decide +kernel

/-- `llvm-bitcursor/src/lib.rs:578-604`: `test_seek_bit`. -/
example : BothProfiles (fun _ => do
    let c := Cursor.new [0b11111110, 0b10100111]
    let c ← gives (Cursor.read 4 c) 0b1110
    let c ← unwrap (Cursor.seekBit 4 c)
    guard (c.tellBit = 4)
    guard (c.tellByte = 0)
    guard (c.bitIndex = 12)
    let c ← gives (Cursor.read 8 c) 0b01111111
    guard (c.tellBit = 12)
    guard (c.tellByte = 1)
    guard (c.bitIndex = 4)
    let c ← gives (Cursor.read 4 c) 0b1010
    let _ ← err (Cursor.read 1 c)
    pure ()) := by decide +kernel

/-- `llvm-bitcursor/src/lib.rs:607-645`: `test_seek`. -/
example : BothProfiles (fun pf => do
    let c := Cursor.new [0xAA, 0xBB, 0xCC, 0xDD]
    let c ← gives (Cursor.read 32 c) 0xDDCCBBAA
    guard (c.tellBit = 32)
    guard (c.tellByte = 4)
    let c ← unwrap (Cursor.seek pf (.current (-2)) c)
    guard (c.tellBit = 16)
    guard (c.tellByte = 2)
    let c ← gives (Cursor.read 16 c) 0xDDCC
    guard (c.tellBit = 32)
    guard (c.tellByte = 4)
    let c ← unwrap (Cursor.seek pf (.start 0) c)
    guard (c.tellBit = 0)
    guard (c.tellByte = 0)
    let c ← gives (Cursor.read 32 c) 0xDDCCBBAA
    guard (c.tellBit = 32)
    guard (c.tellByte = 4)
    let c ← unwrap (Cursor.seek pf (.start 1) c)
    guard (c.tellBit = 8)
    guard (c.tellByte = 1)
    let c ← gives (Cursor.read 8 c) 0xBB
    let c ← unwrap (Cursor.seek pf (.fromEnd (-1)) c)
    guard (c.tellBit = 24)
    guard (c.tellByte = 3)
    let c ← gives (Cursor.read 8 c) 0xDD
    let _ ← err (Cursor.seek pf (.fromEnd 1) c)
    pure ()) := by decide +kernel

/-- `llvm-bitcursor/src/lib.rs:649-653`: `test_vbr2_continuation`. -/
example : BothProfiles (fun pf => do
    let c := Cursor.new [0b01101011]
    let _ ← gives (Cursor.readVbr pf 2 c) 9
    pure ()) := by decide +kernel

/-- `llvm-bitcursor/src/lib.rs:657-661`: `test_vbr4_basic`. -/
example : BothProfiles (fun pf => do
    let c := Cursor.new [0b00000111]
    let _ ← gives (Cursor.readVbr pf 4 c) 7
    pure ()) := by decide +kernel

/-- `llvm-bitcursor/src/lib.rs:665-669`: `test_vbr4_continuation`. -/
example : BothProfiles (fun pf => do
    let c := Cursor.new [0b00111011]
    let _ ← gives (Cursor.readVbr pf 4 c) 27
    pure ()) := by decide +kernel

/-- `llvm-bitcursor/src/lib.rs:673-677`: `test_vbr6_basic`. -/
example : BothProfiles (fun pf => do
    let c := Cursor.new [0b00010000]
    let c ← gives (Cursor.readVbr pf 6 c) 16
    guard (c.tellBit = 6)) := by decide +kernel

/-- `llvm-bitcursor/src/lib.rs:681-686`: `test_vbr6_continuation`. -/
example : BothProfiles (fun pf => do
    let c := Cursor.new [0b01100001, 0b00111001, 0b10011100]
    let c ← gives (Cursor.readVbr pf 6 c) 3233
    let c ← gives (Cursor.read 3 c) 0b111
    let _ ← gives (Cursor.read 3 c) 0b100
    pure ()) := by decide +kernel

/-- `llvm-bitcursor/src/lib.rs:690-695`: `test_svbr4`. -/
example : BothProfiles (fun pf => do
    let c := Cursor.new [0b00000111]
    let _ ← gives (Cursor.readSvbr pf 4 c) (-3)
    pure ()) := by decide +kernel

/-- `llvm-bitcursor/src/lib.rs:698-744`: `test_align32`, part 1. -/
example : BothProfiles (fun _ => do
    let c := Cursor.new [0xAA, 0xBB, 0xCC, 0xDD, 0xEE, 0xFF, 0x11, 0x22]
    let c ← gives (Cursor.read 8 c) 0xAA
    let c := c.align32
    guard (c.tellBit = 32)
    let c ← gives (Cursor.read 8 c) 0xEE
    let c ← gives (Cursor.read 24 c) 0x2211FF
    guard (c.tellBit = 64)) := by decide +kernel

/-- `llvm-bitcursor/src/lib.rs:698-744`: `test_align32`, part 2. -/
example : BothProfiles (fun _ => do
    let c := Cursor.new [0xAA, 0xBB, 0xCC, 0xDD, 0xEE, 0xFF, 0x11, 0x22]
    let c := c.align32
    guard (c.tellBit = 0)
    let c ← unwrap (Cursor.read 32 c)
    let c := c.align32
    guard (c.tellBit = 32)) := by decide +kernel

/-- `llvm-bitcursor/src/lib.rs:698-744`: `test_align32`, part 3. -/
example : BothProfiles (fun _ => do
    let c := Cursor.new [0x11, 0x22, 0x33, 0x44, 0x55, 0x66, 0x77, 0x88, 0x99, 0xAA, 0xBB, 0xCC, 0xDD, 0xEE, 0xFF, 0x00]
    let c ← unwrap (Cursor.read 63 c)
    let c ← unwrap (Cursor.read 1 c)
    guard (c.tellBit = 64)
    let c := c.align32
    guard (c.tellBit = 64)
    let c ← unwrap (Cursor.seekBit 0 c)
    let c ← unwrap (Cursor.read 63 c)
    let c ← unwrap (Cursor.read 1 c)
    let c ← unwrap (Cursor.read 32 c)
    let c := c.align32
    guard (c.tellBit = 96)
    let c ← unwrap (Cursor.read 1 c)
    let c := c.align32
    guard (c.tellBit = 128)) := by decide +kernel

/-- `llvm-bitcursor/src/lib.rs:747-755`: `test_align32_unaligned`. -/
example : BothProfiles (fun _ => do
    let c := Cursor.new [0b00011100, 0xBB, 0xCC, 0xDD, 0xEE, 0xFF, 0x11, 0x22]
    let c ← gives (Cursor.read 5 c) 0b11100
    let c := c.align32
    guard (c.tellBit = 32)
    let c ← gives (Cursor.read 32 c) 0x2211FFEE
    guard (c.tellBit = 64)) := by decide +kernel

/-- `llvm-bitcursor/src/lib.rs:758-785`: `test_align32_next_block`, part 1. -/
example : BothProfiles (fun _ => do
    let c := Cursor.new [0x11, 0x22, 0x33, 0x44, 0x55, 0x66, 0x77, 0x88, 0x99, 0xAA, 0xBB, 0xCC, 0xDD, 0xEE, 0xFF, 0x00]
    let c ← unwrap (Cursor.read 56 c)
    let c := c.align32
    let c ← gives (Cursor.read 32 c) 0xCCBBAA99
    guard (c.tellBit = 96)) := by decide +kernel

/-- `llvm-bitcursor/src/lib.rs:758-785`: `test_align32_next_block`, part 2. -/
example : BothProfiles (fun _ => do
    let c := Cursor.new [0x11, 0x22, 0x33, 0x44, 0x55, 0x66, 0x77, 0x88, 0x99, 0xAA, 0xBB, 0xCC, 0xDD, 0xEE, 0xFF, 0x00]
    let c ← unwrap (Cursor.read 56 c)
    let c ← unwrap (Cursor.read 17 c)
    let c := c.align32
    let c ← gives (Cursor.read 32 c) 0x00FFEEDD
    guard (c.tellBit = 128)) := by decide +kernel

/-- `llvm-bitcursor/src/lib.rs:789-816`: `test_parse_unabbrev`. -/
example : BothProfiles (fun pf => do
    let c := Cursor.new [0b00010111, 0b00000100, 0b00000110, 0xFF, 0b00010111, 0b00000100,
      0b00000110, 0b11111111, 0b10111101, 0b00100000, 0b00000000, 0b00000011]
    let c ← gives (Cursor.readVbr pf 2 c) 3
    let c ← gives (Cursor.readVbr pf 6 c) 1
    let c ← gives (Cursor.readVbr pf 6 c) 1
    let c ← gives (Cursor.readVbr pf 6 c) 6
    let c := c.align32
    let c ← gives (Cursor.readVbr pf 2 c) 3
    let c ← gives (Cursor.readVbr pf 6 c) 1
    let c ← gives (Cursor.readVbr pf 6 c) 1
    let c ← gives (Cursor.readVbr pf 6 c) 6
    guard (c.tellBit = 54)
    let c ← gives (Cursor.read 13 c) 0b1011111111100
    let c ← gives (Cursor.readVbr pf 2 c) 3
    let c ← gives (Cursor.readVbr pf 6 c) 1
    let c ← gives (Cursor.readVbr pf 6 c) 1
    let _ ← gives (Cursor.readVbr pf 6 c) 32
    pure ()) := by decide +kernel

/-- `llvm-bitcursor/src/lib.rs:820-837`: `test_pseudo_bitstream1`. -/
example : BothProfiles (fun pf => do
    let c := Cursor.new [0xAA, 0xAA, 0x42, 0x43, 0xC0, 0xDE, 0x35, 0x14, 0x00, 0x00, 0x05, 0x00, 0x00, 0x00, 0x62, 0x0C]
    let c ← gives (Cursor.read 16 c) 0xAAAA
    let c ← gives (Cursor.read 32 c) 0xDEC04342
    let c ← gives (Cursor.read 2 c) 0b01
    let c ← gives (Cursor.readVbr pf 8 c) 13
    let c ← gives (Cursor.readVbr pf 5 c) 5
    guard (c.bitIndex = 1)
    guard (c.tellBit = 63)
    let c := c.align32
    guard (c.bitIndex = 0)
    guard (c.currentBlock = 0)
    guard (c.tellBit = 64)
    let c ← unwrap (Cursor.read 16 c)
    let _ ← gives (Cursor.read 32 c) 5
    pure ()) := by decide +kernel

end Verif.Tests
