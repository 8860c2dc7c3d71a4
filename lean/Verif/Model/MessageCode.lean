import Verif.Model.Basic
/-! Model of the message codes in `esl/interaction/header.hpp:42-67`. -/
namespace Esl.MessageCode

/-- `header.hpp:46` `message_mask`. -/
def mask : Nat := 0x8000000000000000

/-- `header.hpp:51-57` `library_message_code`. A failed `static_assert` (the program does not compile) is `none`. -/
def code (offset : Nat) : Option Nat := if mask ≥ offset then some (mask ||| offset) else none

/-- `header.hpp:62-67` `library_message_offset`; `~message_mask` in 64 bits. -/
def offset (code : Nat) : Option Nat := if mask &&& code ≠ 0 then some ((2 ^ 64 - 1 - mask) &&& code) else none

/-- The offsets used in the library, one per message class (`interaction/transfer.hpp:53`, `python_module_esl.cpp:1031`,
`economics/markets/*_message.hpp`, `markets/walras/*.hpp`, `markets/impact_function/*.hpp`, `economics/finance/dividend.hpp:108,143`). -/
def used : List Nat :=
  [0x1, 0x2, 0x00A0, 0x00A2, 0x00B0, 0x00B2, 0x0100, 0x00C00, 0x00C01, 0x00C02, 0x00C03, 0x00C04, 0x00C05, 0x00C06, 0x00C07, 0x00C08,
   0x00C09, 0x00C0A, 0x00C0B, 0x0F00, 0x0F01]

end Esl.MessageCode
