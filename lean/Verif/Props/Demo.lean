import Verif.Spec.Types

/-! Concrete platforms used in the examples and counterexamples. -/

namespace Upd

/-- A 64-bit little-endian host without macros; uninitialised memory holds 0xAA. -/
def pc : Platform := ⟨.little, 4, none, none, fun _ => 0xAA#8⟩
/-- The same host with both macros. -/
def pcMacros : Platform := ⟨.little, 4, some .little, some .twosComplement, fun _ => 0xAA#8⟩
/-- An 8-bit microcontroller with 16-bit `int`, without macros. -/
def avr : Platform := ⟨.little, 2, none, none, fun _ => 0x55#8⟩
/-- A 32-bit big-endian host without macros. -/
def ppc : Platform := ⟨.big, 4, none, none, fun _ => 0xAA#8⟩
/-- The same big-endian host, with both macros. -/
def ppcMacros : Platform := ⟨.big, 4, some .big, some .twosComplement, fun _ => 0xAA#8⟩
/-- The same big-endian host, with the macro for endianess only. -/
def ppcEndian : Platform := ⟨.big, 4, some .big, none, fun _ => 0xAA#8⟩
/-- The same big-endian host, with the macro for the signed mode only. -/
def ppcSigned : Platform := ⟨.big, 4, none, some .twosComplement, fun _ => 0xAA#8⟩

theorem pc_valid : pc.Valid := ⟨by decide, by decide, (by intro e h; cases h), by intro e h; cases h⟩
theorem pcMacros_valid : pcMacros.Valid :=
  ⟨by decide, by decide, by intro e h; cases h; rfl, by intro e h; cases h; rfl⟩
theorem avr_valid : avr.Valid := ⟨by decide, by decide, (by intro e h; cases h), by intro e h; cases h⟩
theorem ppc_valid : ppc.Valid := ⟨by decide, by decide, (by intro e h; cases h), by intro e h; cases h⟩
theorem ppcMacros_valid : ppcMacros.Valid :=
  ⟨by decide, by decide, by intro e h; cases h; rfl, by intro e h; cases h; rfl⟩
theorem ppcEndian_valid : ppcEndian.Valid := ⟨by decide, by decide, by intro e h; cases h; rfl, by intro e h; cases h⟩
theorem ppcSigned_valid : ppcSigned.Valid := ⟨by decide, by decide, (by intro e h; cases h), by intro e h; cases h; rfl⟩

open Spec

theorem pc_supported (e : Endian) (s : Mode) : Supported pc e s := Or.inl rfl
theorem pcMacros_supported (e : Endian) (s : Mode) : Supported pcMacros e s := Or.inl rfl
theorem avr_supported (e : Endian) (s : Mode) : Supported avr e s := Or.inl rfl
theorem ppc_supported (e : Endian) (s : Mode) : Supported ppc e s :=
  Or.inr (Or.inl ⟨by simp [ppc], by simp [ppc]⟩)
theorem ppcMacros_supported : Supported ppcMacros .big .twosComplement := Or.inr (Or.inr ⟨rfl, rfl⟩)

end Upd
