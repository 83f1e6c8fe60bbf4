import Verif.Model.Loader
import Verif.Props.Pe
/-! # Building blocks for concrete examples -/

namespace Clr.Ex
open Spec

/-- No rows at all. -/
def noRows : Tables :=
  { module := [], typeRef := [], typeDef := [], field := [], methodDef := [], param := [], interfaceImpl := [], memberRef := [], constant := [], customAttribute := [], fieldMarshal := [], declSecurity := [], classLayout := [], fieldLayout := [], standaloneSig := [], eventMap := [], event := [], propertyMap := [], property := [], methodSemantics := [], methodImpl := [], moduleRef := [], typeSpec := [], implMap := [], fieldRva := [], assembly := [], assemblyProcessor := [], assemblyOs := [], assemblyRef := [], assemblyRefProcessor := [], assemblyRefOs := [], file := [], exportedType := [], manifestResource := [], nestedClass := [], genericParam := [], methodSpec := [], genericParamConstraint := [] }

/-- One section of 4096 bytes at address 0x2000 and file offset 0. -/
def sec : Section := ⟨[0x2e, 0x74, 0x65, 0x78, 0x74, 0, 0, 0], 0x1000, 0x2000, 0x1000, 0, 0, 0, 0, 0, 0⟩

/-- Parsed metadata whose file consists of `file` placed at address 0x2000. -/
def metadata (file strings blob : Bytes) (tables : Tables) (entryPoint : Option Nat := none) : Metadata where
  peData := file
  peInfo := ⟨⟨0, 1, 0, 0, 0, 0, 0⟩, .pe32 [] 0, [], [secOf sec]⟩
  cliHeader := ⟨72, 2, 5, ⟨0, 0⟩, 1, ⟨0⟩, ⟨0, 0⟩, ⟨0, 0⟩, ⟨0, 0⟩, ⟨0, 0⟩, ⟨0, 0⟩, ⟨0, 0⟩⟩
  metadata := []
  stringsHeap := StringsHeap.new strings
  userStringData := []
  blobHeap := blob
  guidHeap := []
  tables := tables
  entryPoint := entryPoint

/-- The bytes of ASCII text. -/
def ascii (s : String) : Bytes := s.toList.map fun c => UInt8.ofNat c.toNat

/-- A type row with all attributes off. -/
def typeDefRow (name nspace : Nat) (baseType : Coded) (fieldList methodList : Nat) : TypeDefRow :=
  { attributes := { visibility := .nonPublic, layout := .auto, semantics := .cls, isAbstract := false, isSealed := false,
                    specialName := false, imported := false, serialisable := false, stringFormat := .ansi,
                    beforeFieldInit := false, rtSpecialName := false, hasSecurity := false, isTypeForwarder := false },
    name, nspace, baseType, fieldList, methodList }

end Clr.Ex
