import Verif.Model.Basic
import Verif.Model.TocData
import Verif.Props.C01_C02_FrameRanges
import Verif.Props.C03_C05_CloneEqual
import Verif.Props.C06_Containers
import Verif.Props.C06_Queries
import Verif.Props.C07_C08_Layouts
import Verif.Props.C09_C10_Lookup
import Verif.Props.C11_Offsets
import Verif.Props.C12_FrameBounds
import Verif.Props.C13_Pages
import Verif.Props.C14_UsedLayouts
import Verif.Props.C29_ZeroReference
import Verif.Props.C30_References
import Verif.Props.C31_SaveLoadValid
import Verif.Props.C32_C35_TagsSizes
import Verif.Props.C36_Extract
import Verif.Props.C37_Validity
import Verif.Props.C15_C19_Hash
import Verif.Props.C34_C39_Boxing
import Verif.Props.C41_C44_Sizes
import Verif.Props.C38_C40_Search
import Verif.Props.C40_Numeric
import Verif.Props.C20_C21_Xml
import Verif.Props.C27_C28_Text
import Verif.Props.C22_C23_Layouts
import Verif.Props.C24_Metadata
import Verif.Props.C25_Files
import Verif.Props.C26_Toc
import Verif.Props.C33_Tables
import Verif.Props.C46_LoadAll
import Verif.Props.C47_Setters
import Verif.Props.C47_Fields
import Verif.Props.C48_Admin
import Verif.Props.C49_FormatXml
import Verif.Props.C50_C51_Control
import Verif.Props.C52_C53_Encoding
import Verif.Props.C54_C55_Grammar
import Verif.Props.C56_Cut
import Verif.Props.C57_C59_Links
import Verif.Props.C60_Memory
import Verif.Props.C61_Schema
import Verif.Props.C62_Disk
import Verif.Props.C63_Loading
import Verif.Props.C64_Documents
import Verif.Props.C65_Threads
import Verif.Props.C66_Reads
import Verif.Props.C67_ControlSchema
import Verif.Props.C68_Builtin
import Verif.Props.C69_Relaid
import Verif.Props.C70_Stable
import Verif.Props.C71_IllFormed
import Verif.Props.C72_Strings
import Verif.Props.C73_Session
import Verif.Props.C74_Broken
import Verif.Props.C75_Objects
import Verif.Props.C76_Apart
import Verif.Props.C77_FormatMemory
import Verif.Props.C78_Constructors
import Verif.Props.C79_ZeroMemory
import Verif.Props.C80_Reuse
import Verif.Props.C81_Toc
import Verif.Props.C82_NoMemory
import Verif.Props.C83_Transient
import Verif.Props.C84_Accepted
import Verif.Props.C85_Wrap
import Verif.Props.C86_Made
import Verif.Props.C87_Built
import Verif.Props.C81_Saved
import Verif.Props.C88_BuiltControl
import Verif.Props.C89_Extended
import Verif.Props.C89_Saved
import Verif.Props.C90_Apart
import Verif.Props.C91_Attributes
import Verif.Props.C92_Held
import Verif.Props.C93_Path
import Verif.Props.C94_EntityCallbacks
import Verif.Props.C95_Index
import Verif.Props.C95_IndexSort
import Verif.Props.C15_SelfTest
import Verif.Checks.Reel
import Verif.Checks.Durations
import Verif.Checks.Toc
