import Verif.Props.Reader
import Verif.Props.Pe
import Verif.Props.Heaps
import Verif.Props.Signature
import Verif.Props.Tables
import Verif.Props.Metadata
import Verif.Props.MethodBody
import Verif.Props.Registry
import Verif.Props.Names
import Verif.Props.Loading
import Verif.Props.Assemblies
import Verif.Props.Arith
import Verif.Props.Decode
import Verif.Props.Variables
import Verif.Props.Calls
import Verif.Props.Objects
import Verif.Props.Output
import Verif.Props.Construct
import Verif.Props.Lang
import Verif.Props.Depths
import Verif.Props.Layout
import Verif.Props.Typing
import Verif.Props.Arrays
import Verif.Props.Files
import Verif.Props.Kinds
import Verif.Props.Acyclic
import Verif.Props.Display
import Verif.Props.Abstract
import Verif.Props.Valid
import Verif.Props.Floats
import Verif.Props.Whole
import Verif.Props.Objective
import Verif.Props.Program
import Verif.Props.ReadBack
import Verif.Props.Main
import Verif.Props.Contains
import Verif.Props.Builds
import Verif.Props.Kept
import Verif.Props.Later
import Verif.Props.Borrow
import Verif.Props.Links
import Verif.Props.Operators
import Verif.Props.Source
import Verif.Props.Align
import Verif.Props.Natives
import Verif.Props.Ownership
import Verif.Props.Cost
import Verif.Props.Room
import Verif.Props.Ends
import Verif.Props.Further
import Verif.Props.Args
import Verif.Props.Unread
import Verif.Props.Declared
import Verif.Props.Garbage
import Verif.Props.Deep
import Verif.Props.Sections
import Verif.Props.Typed
import Verif.Props.AlignFiles
import Verif.Props.AlignBodies
import Verif.Props.Nesting
import Verif.Replay
import Verif.Props.Spelling
import Verif.Props.AlignSigs
import Verif.Props.Halts
import Verif.Props.Unreached
import Verif.Props.Renamed
import Verif.Props.Handlers
import Verif.Props.Narrow
import Verif.Props.Literals
import Verif.Props.Harmless
import Verif.Audit
