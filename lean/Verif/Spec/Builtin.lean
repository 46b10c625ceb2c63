import Verif.Model.Basic
/-!
# What the built-in boxing formats say

Generated by tools/builtin.py from conf/reel-4k-controlframe-v7.xml to -v3.xml with the XML parser of Python, not with the model:
the properties in the order of the document, as class, name, value; the version of a class counts as its first property.
-/
namespace Afs.Spec

/-- conf/reel-4k-controlframe-v7.xml:1-118. -/
def saidByV7 : List (Bytes × Bytes × Bytes) := [
  (b! "FormatInfo", b! "name", b! "4k-controlframe-v7"),
  (b! "FormatInfo", b! "shortDescription", b! "4k control data frame format"),
  (b! "FormatInfo", b! "description", b! "Frames are generated using the Generic Preservation Format v1.1 printed on a 4096x2160 raster"),
  (b! "FrameFormat", b! "type", b! "GPFv1.1"),
  (b! "FrameFormat", b! "width", b! "1024"),
  (b! "FrameFormat", b! "height", b! "540"),
  (b! "FrameFormat", b! "border", b! "1"),
  (b! "FrameFormat", b! "borderGap", b! "1"),
  (b! "FrameFormat", b! "cornerMarkSize", b! "32"),
  (b! "FrameFormat", b! "cornerMarkGap", b! "1"),
  (b! "FrameFormat", b! "tilesPerColumn", b! "4"),
  (b! "FrameFormat", b! "refBarSyncDistance", b! "66"),
  (b! "FrameFormat", b! "refBarSyncOffset", b! "16"),
  (b! "FrameFormat", b! "maxLevelsPerSymbol", b! "2"),
  (b! "FrameRaster", b! "width", b! "4096"),
  (b! "FrameRaster", b! "height", b! "2160"),
  (b! "FrameRaster", b! "scalingFactor", b! "4"),
  (b! "CodecDispatcher", b! "version", b! "1.0"),
  (b! "CodecDispatcher", b! "order", b! "decode"),
  (b! "CodecDispatcher", b! "symbolAlignment", b! "byte"),
  (b! "CodecDispatcher", b! "DataCodingScheme", b! "SyncPointInserter,Modulator,Cipher,FInterleave,RS_inner,XInterleave,RS_outer,CRC,PacketHeader"),
  (b! "CodecDispatcher", b! "MetadataCodingScheme", b! "MetaData_Modulator,MetaData_Cipher,MetaData_XInterleave,MetaData_ReedSolomon,MetaData_CRC,PacketHeader"),
  (b! "PacketHeader", b! "codec", b! "PacketHeader"),
  (b! "CRC", b! "codec", b! "CRC64"),
  (b! "CRC", b! "polynom", b! "0x42F0E1EBA9EA3693"),
  (b! "CRC", b! "seed", b! "0x0000000000000000"),
  (b! "RS_outer", b! "codec", b! "ReedSolomon"),
  (b! "RS_outer", b! "byteParityNumber", b! "20"),
  (b! "RS_outer", b! "messageSize", b! "172"),
  (b! "XInterleave", b! "codec", b! "Interleaving"),
  (b! "XInterleave", b! "distance", b! "192"),
  (b! "XInterleave", b! "interleavingtype", b! "block"),
  (b! "XInterleave", b! "symboltype", b! "byte"),
  (b! "RS_inner", b! "codec", b! "ReedSolomon"),
  (b! "RS_inner", b! "byteParityNumber", b! "16"),
  (b! "RS_inner", b! "messageSize", b! "192"),
  (b! "FInterleave", b! "codec", b! "Interleaving"),
  (b! "FInterleave", b! "distance", b! "239"),
  (b! "FInterleave", b! "interleavingtype", b! "block"),
  (b! "FInterleave", b! "symboltype", b! "byte"),
  (b! "Cipher", b! "codec", b! "Cipher"),
  (b! "Cipher", b! "key", b! "auto"),
  (b! "Modulator", b! "codec", b! "Modulator"),
  (b! "Modulator", b! "NumBitsPerPixel", b! "auto"),
  (b! "SyncPointInserter", b! "codec", b! "SyncPointInserter"),
  (b! "SyncPointInserter", b! "SyncPointDistancePixel", b! "100"),
  (b! "SyncPointInserter", b! "SyncPointRadiusPixel", b! "2"),
  (b! "SyncPointInserter", b! "DataOrientation", b! "1"),
  (b! "SyncPointInserter", b! "NumBitsPerPixel", b! "auto"),
  (b! "MetaData_CRC", b! "codec", b! "CRC32"),
  (b! "MetaData_CRC", b! "polynom", b! "0x1EDC6F41"),
  (b! "MetaData_CRC", b! "seed", b! "0x00000000"),
  (b! "MetaData_ReedSolomon", b! "codec", b! "ReedSolomon"),
  (b! "MetaData_ReedSolomon", b! "byteParityNumber", b! "20"),
  (b! "MetaData_ReedSolomon", b! "messageSize", b! "99"),
  (b! "MetaData_XInterleave", b! "codec", b! "Interleaving"),
  (b! "MetaData_XInterleave", b! "distance", b! "247"),
  (b! "MetaData_XInterleave", b! "interleavingtype", b! "block"),
  (b! "MetaData_XInterleave", b! "symboltype", b! "byte"),
  (b! "MetaData_Modulator", b! "codec", b! "Modulator"),
  (b! "MetaData_Modulator", b! "NumBitsPerPixel", b! "auto"),
  (b! "MetaData_Cipher", b! "codec", b! "Cipher"),
  (b! "MetaData_Cipher", b! "key", b! "1")]

/-- conf/reel-4k-controlframe-v6.xml:1-118. -/
def saidByV6 : List (Bytes × Bytes × Bytes) := [
  (b! "FormatInfo", b! "name", b! "4k-controlframe-v6"),
  (b! "FormatInfo", b! "shortDescription", b! "4k control data frame format"),
  (b! "FormatInfo", b! "description", b! "Frames are generated using the Generic Preservation Format v1.0 printed on a 4096x2160 raster"),
  (b! "FrameFormat", b! "type", b! "GPFv1.0"),
  (b! "FrameFormat", b! "width", b! "1024"),
  (b! "FrameFormat", b! "height", b! "540"),
  (b! "FrameFormat", b! "border", b! "1"),
  (b! "FrameFormat", b! "borderGap", b! "1"),
  (b! "FrameFormat", b! "cornerMarkSize", b! "32"),
  (b! "FrameFormat", b! "cornerMarkGap", b! "1"),
  (b! "FrameFormat", b! "tilesPerColumn", b! "4"),
  (b! "FrameFormat", b! "refBarSyncDistance", b! "32"),
  (b! "FrameFormat", b! "refBarSyncOffset", b! "16"),
  (b! "FrameFormat", b! "maxLevelsPerSymbol", b! "2"),
  (b! "FrameRaster", b! "width", b! "4096"),
  (b! "FrameRaster", b! "height", b! "2160"),
  (b! "FrameRaster", b! "scalingFactor", b! "4"),
  (b! "CodecDispatcher", b! "version", b! "1.0"),
  (b! "CodecDispatcher", b! "order", b! "decode"),
  (b! "CodecDispatcher", b! "symbolAlignment", b! "byte"),
  (b! "CodecDispatcher", b! "DataCodingScheme", b! "SyncPointInserter,Modulator,Cipher,FInterleave,RS_inner,XInterleave,RS_outer,CRC,PacketHeader"),
  (b! "CodecDispatcher", b! "MetadataCodingScheme", b! "MetaData_Modulator,MetaData_Cipher,MetaData_XInterleave,MetaData_ReedSolomon,MetaData_CRC,PacketHeader"),
  (b! "PacketHeader", b! "codec", b! "PacketHeader"),
  (b! "CRC", b! "codec", b! "CRC64"),
  (b! "CRC", b! "polynom", b! "0x42F0E1EBA9EA3693"),
  (b! "CRC", b! "seed", b! "0x0000000000000000"),
  (b! "RS_outer", b! "codec", b! "ReedSolomon"),
  (b! "RS_outer", b! "byteParityNumber", b! "20"),
  (b! "RS_outer", b! "messageSize", b! "172"),
  (b! "XInterleave", b! "codec", b! "Interleaving"),
  (b! "XInterleave", b! "distance", b! "192"),
  (b! "XInterleave", b! "interleavingtype", b! "block"),
  (b! "XInterleave", b! "symboltype", b! "byte"),
  (b! "RS_inner", b! "codec", b! "ReedSolomon"),
  (b! "RS_inner", b! "byteParityNumber", b! "16"),
  (b! "RS_inner", b! "messageSize", b! "192"),
  (b! "FInterleave", b! "codec", b! "Interleaving"),
  (b! "FInterleave", b! "distance", b! "239"),
  (b! "FInterleave", b! "interleavingtype", b! "block"),
  (b! "FInterleave", b! "symboltype", b! "byte"),
  (b! "Cipher", b! "codec", b! "Cipher"),
  (b! "Cipher", b! "key", b! "auto"),
  (b! "Modulator", b! "codec", b! "Modulator"),
  (b! "Modulator", b! "NumBitsPerPixel", b! "auto"),
  (b! "SyncPointInserter", b! "codec", b! "SyncPointInserter"),
  (b! "SyncPointInserter", b! "SyncPointDistancePixel", b! "100"),
  (b! "SyncPointInserter", b! "SyncPointRadiusPixel", b! "2"),
  (b! "SyncPointInserter", b! "DataOrientation", b! "1"),
  (b! "SyncPointInserter", b! "NumBitsPerPixel", b! "auto"),
  (b! "MetaData_CRC", b! "codec", b! "CRC32"),
  (b! "MetaData_CRC", b! "polynom", b! "0x1EDC6F41"),
  (b! "MetaData_CRC", b! "seed", b! "0x00000000"),
  (b! "MetaData_ReedSolomon", b! "codec", b! "ReedSolomon"),
  (b! "MetaData_ReedSolomon", b! "byteParityNumber", b! "20"),
  (b! "MetaData_ReedSolomon", b! "messageSize", b! "99"),
  (b! "MetaData_XInterleave", b! "codec", b! "Interleaving"),
  (b! "MetaData_XInterleave", b! "distance", b! "247"),
  (b! "MetaData_XInterleave", b! "interleavingtype", b! "block"),
  (b! "MetaData_XInterleave", b! "symboltype", b! "byte"),
  (b! "MetaData_Modulator", b! "codec", b! "Modulator"),
  (b! "MetaData_Modulator", b! "NumBitsPerPixel", b! "auto"),
  (b! "MetaData_Cipher", b! "codec", b! "Cipher"),
  (b! "MetaData_Cipher", b! "key", b! "1")]

/-- conf/reel-4k-controlframe-v5.xml:1-103. -/
def saidByV5 : List (Bytes × Bytes × Bytes) := [
  (b! "FormatInfo", b! "name", b! "4k-controlframe-v5"),
  (b! "FormatInfo", b! "shortDescription", b! "4k control data frame format"),
  (b! "FormatInfo", b! "description", b! "Frames are generated using the Generic Preservation Format v1.0 printed on a 4096x2160 raster"),
  (b! "FrameFormat", b! "type", b! "GPFv1.0"),
  (b! "FrameFormat", b! "width", b! "1024"),
  (b! "FrameFormat", b! "height", b! "540"),
  (b! "FrameFormat", b! "border", b! "1"),
  (b! "FrameFormat", b! "borderGap", b! "1"),
  (b! "FrameFormat", b! "cornerMarkSize", b! "32"),
  (b! "FrameFormat", b! "cornerMarkGap", b! "1"),
  (b! "FrameFormat", b! "tilesPerColumn", b! "4"),
  (b! "FrameFormat", b! "maxLevelsPerSymbol", b! "2"),
  (b! "FrameRaster", b! "width", b! "4096"),
  (b! "FrameRaster", b! "height", b! "2160"),
  (b! "FrameRaster", b! "scalingFactor", b! "4"),
  (b! "CodecDispatcher", b! "order", b! "decode"),
  (b! "CodecDispatcher", b! "symbolAlignment", b! "byte"),
  (b! "CodecDispatcher", b! "DataCodingScheme", b! "SyncPointInserter,Modulator,Cipher,Interleaving_inner,ReedSolomon_inner,Interleaving_outer,ReedSolomon_outer"),
  (b! "CodecDispatcher", b! "MetadataCodingScheme", b! "MetaData_Modulator,MetaData_Cipher,MetaData_ReedSolomon"),
  (b! "ReedSolomon_outer", b! "codec", b! "ReedSolomon"),
  (b! "ReedSolomon_outer", b! "byteParityNumber", b! "20"),
  (b! "ReedSolomon_outer", b! "messageSize", b! "172"),
  (b! "Interleaving_outer", b! "codec", b! "Interleaving"),
  (b! "Interleaving_outer", b! "distance", b! "192"),
  (b! "Interleaving_outer", b! "interleavingtype", b! "block"),
  (b! "Interleaving_outer", b! "symboltype", b! "byte"),
  (b! "ReedSolomon_inner", b! "codec", b! "ReedSolomon"),
  (b! "ReedSolomon_inner", b! "byteParityNumber", b! "16"),
  (b! "ReedSolomon_inner", b! "messageSize", b! "192"),
  (b! "Interleaving_inner", b! "codec", b! "Interleaving"),
  (b! "Interleaving_inner", b! "distance", b! "239"),
  (b! "Interleaving_inner", b! "interleavingtype", b! "block"),
  (b! "Interleaving_inner", b! "symboltype", b! "byte"),
  (b! "Cipher", b! "codec", b! "Cipher"),
  (b! "Cipher", b! "key", b! "auto"),
  (b! "Modulator", b! "codec", b! "Modulator"),
  (b! "Modulator", b! "NumBitsPerPixel", b! "auto"),
  (b! "SyncPointInserter", b! "codec", b! "SyncPointInserter"),
  (b! "SyncPointInserter", b! "SyncPointDistancePixel", b! "100"),
  (b! "SyncPointInserter", b! "SyncPointRadiusPixel", b! "2"),
  (b! "SyncPointInserter", b! "DataOrientation", b! "1"),
  (b! "SyncPointInserter", b! "NumBitsPerPixel", b! "auto"),
  (b! "MetaData_ReedSolomon", b! "codec", b! "ReedSolomon"),
  (b! "MetaData_ReedSolomon", b! "byteParityNumber", b! "20"),
  (b! "MetaData_ReedSolomon", b! "messageSize", b! "99"),
  (b! "MetaData_Modulator", b! "codec", b! "Modulator"),
  (b! "MetaData_Modulator", b! "NumBitsPerPixel", b! "auto"),
  (b! "MetaData_Cipher", b! "codec", b! "Cipher"),
  (b! "MetaData_Cipher", b! "key", b! "1"),
  (b! "crc64", b! "POLY64REV", b! "0x42F0E1EBA9EA3693"),
  (b! "crc64", b! "INITIALCRC", b! "0x0000000000000000"),
  (b! "crc32", b! "POLY32REV", b! "0x42F0E1EBA9EA3693"),
  (b! "crc32", b! "INITIALCRC", b! "0x0000000000000000")]

/-- conf/reel-4k-controlframe-v4.xml:1-143. -/
def saidByV4 : List (Bytes × Bytes × Bytes) := [
  (b! "FormatInfo", b! "name", b! "4k-controlframe-v4"),
  (b! "FormatInfo", b! "shortDescription", b! "4k control data frame format"),
  (b! "FormatInfo", b! "description", b! "Frames are generated using the Generic Preservation Format v1.0 printed on a 4096x2160 raster"),
  (b! "FrameFormat", b! "type", b! "GPFv1.0"),
  (b! "FrameFormat", b! "width", b! "1024"),
  (b! "FrameFormat", b! "height", b! "540"),
  (b! "FrameFormat", b! "border", b! "1"),
  (b! "FrameFormat", b! "borderGap", b! "1"),
  (b! "FrameFormat", b! "cornerMarkSize", b! "32"),
  (b! "FrameFormat", b! "cornerMarkGap", b! "1"),
  (b! "FrameFormat", b! "tilesPerColumn", b! "4"),
  (b! "FrameFormat", b! "maxLevelsPerSymbol", b! "2"),
  (b! "FrameBuilder", b! "fileFormat", b! "RAW"),
  (b! "ImageRaw", b! "version", b! "1.0.0.0"),
  (b! "ImageRaw", b! "rawVersion", b! "1"),
  (b! "ImageRaw", b! "holes", b! "3"),
  (b! "FrameUnbuilder", b! "version", b! "1.0.0.0"),
  (b! "FrameUnbuilder", b! "alias", b! "FrameBuilder"),
  (b! "CodecDispatcher", b! "order", b! "decode"),
  (b! "CodecDispatcher", b! "symbolAlignment", b! "byte"),
  (b! "CodecDispatcher", b! "DataCodingScheme", b! "SyncPointInserter,Modulator,Cipher,Interleaving2,ReedSolomon2,Interleaving1,ReedSolomon1"),
  (b! "CodecDispatcher", b! "MetadataCodingScheme", b! "MetaData_Modulator,MetaData_Cipher,MetaData_ReedSolomon1"),
  (b! "ReedSolomon1", b! "codec", b! "ReedSolomon"),
  (b! "ReedSolomon1", b! "byteParityNumber", b! "20"),
  (b! "ReedSolomon1", b! "messageSize", b! "172"),
  (b! "Interleaving1", b! "codec", b! "Interleaving"),
  (b! "Interleaving1", b! "distance", b! "192"),
  (b! "Interleaving1", b! "interleavingtype", b! "block"),
  (b! "Interleaving1", b! "symboltype", b! "byte"),
  (b! "ReedSolomon2", b! "codec", b! "ReedSolomon"),
  (b! "ReedSolomon2", b! "byteParityNumber", b! "16"),
  (b! "ReedSolomon2", b! "messageSize", b! "192"),
  (b! "Interleaving2", b! "codec", b! "Interleaving"),
  (b! "Interleaving2", b! "distance", b! "239"),
  (b! "Interleaving2", b! "interleavingtype", b! "block"),
  (b! "Interleaving2", b! "symboltype", b! "byte"),
  (b! "Cipher", b! "codec", b! "Cipher"),
  (b! "Cipher", b! "key", b! "auto"),
  (b! "Modulator", b! "codec", b! "Modulator"),
  (b! "Modulator", b! "NumBitsPerPixel", b! "auto"),
  (b! "SyncPointInserter", b! "codec", b! "SyncPointInserter"),
  (b! "SyncPointInserter", b! "SyncPointDistancePixel", b! "100"),
  (b! "SyncPointInserter", b! "SyncPointRadiusPixel", b! "2"),
  (b! "SyncPointInserter", b! "DataOrientation", b! "1"),
  (b! "SyncPointInserter", b! "NumBitsPerPixel", b! "auto"),
  (b! "MetaData_ReedSolomon1", b! "codec", b! "ReedSolomon"),
  (b! "MetaData_ReedSolomon1", b! "byteParityNumber", b! "20"),
  (b! "MetaData_ReedSolomon1", b! "messageSize", b! "99"),
  (b! "MetaData_Modulator", b! "codec", b! "Modulator"),
  (b! "MetaData_Modulator", b! "NumBitsPerPixel", b! "auto"),
  (b! "MetaData_Cipher", b! "codec", b! "Cipher"),
  (b! "MetaData_Cipher", b! "key", b! "1"),
  (b! "FrameUnbuilder", b! "version", b! "1.0.0.0"),
  (b! "FrameUnbuilder", b! "alias", b! "FrameBuilder"),
  (b! "BaseBuilder", b! "blockSize", b! "1"),
  (b! "BaseBuilder", b! "scalingFactor", b! "4"),
  (b! "FrameBuilder", b! "dimensions", b! "4092,2156"),
  (b! "FrameBuilder", b! "fileFormat", b! "TIF"),
  (b! "crc64", b! "POLY64REV", b! "0x42F0E1EBA9EA3693"),
  (b! "crc64", b! "INITIALCRC", b! "0x0000000000000000"),
  (b! "crc32", b! "POLY32REV", b! "0x42F0E1EBA9EA3693"),
  (b! "crc32", b! "INITIALCRC", b! "0x0000000000000000")]

/-- conf/reel-4k-controlframe-v3.xml:1-138. -/
def saidByV3 : List (Bytes × Bytes × Bytes) := [
  (b! "FormatInfo", b! "name", b! "4k-controlframe-v3"),
  (b! "FormatInfo", b! "shortDescription", b! "4k control data frame format"),
  (b! "FormatInfo", b! "description", b! "Frames are generated using the Generic Preservation Format v1.0 printed on a 4096x2160 raster"),
  (b! "FrameFormat", b! "type", b! "GPFv1.0"),
  (b! "FrameFormat", b! "width", b! "1024"),
  (b! "FrameFormat", b! "height", b! "540"),
  (b! "FrameFormat", b! "border", b! "1"),
  (b! "FrameFormat", b! "borderGap", b! "1"),
  (b! "FrameFormat", b! "cornerMarkSize", b! "32"),
  (b! "FrameFormat", b! "cornerMarkGap", b! "1"),
  (b! "FrameFormat", b! "tilesPerColumn", b! "4"),
  (b! "FrameFormat", b! "maxLevelsPerSymbol", b! "2"),
  (b! "FrameBuilder", b! "fileFormat", b! "RAW"),
  (b! "ImageRaw", b! "version", b! "1.0.0.0"),
  (b! "ImageRaw", b! "rawVersion", b! "1"),
  (b! "ImageRaw", b! "holes", b! "3"),
  (b! "FrameUnbuilder", b! "version", b! "1.0.0.0"),
  (b! "FrameUnbuilder", b! "alias", b! "FrameBuilder"),
  (b! "CodecDispatcher", b! "order", b! "decode"),
  (b! "CodecDispatcher", b! "symbolAlignment", b! "byte"),
  (b! "CodecDispatcher", b! "DataCodingScheme", b! "SyncPointInserter,Modulator,Cipher,Interleaving2,ReedSolomon2,Interleaving1,ReedSolomon1"),
  (b! "CodecDispatcher", b! "MetadataCodingScheme", b! "MetaData_Modulator,MetaData_ReedSolomon1"),
  (b! "ReedSolomon1", b! "codec", b! "ReedSolomon"),
  (b! "ReedSolomon1", b! "byteParityNumber", b! "20"),
  (b! "ReedSolomon1", b! "messageSize", b! "172"),
  (b! "Interleaving1", b! "codec", b! "Interleaving"),
  (b! "Interleaving1", b! "distance", b! "192"),
  (b! "Interleaving1", b! "interleavingtype", b! "block"),
  (b! "Interleaving1", b! "symboltype", b! "byte"),
  (b! "ReedSolomon2", b! "codec", b! "ReedSolomon"),
  (b! "ReedSolomon2", b! "byteParityNumber", b! "16"),
  (b! "ReedSolomon2", b! "messageSize", b! "192"),
  (b! "Interleaving2", b! "codec", b! "Interleaving"),
  (b! "Interleaving2", b! "distance", b! "239"),
  (b! "Interleaving2", b! "interleavingtype", b! "block"),
  (b! "Interleaving2", b! "symboltype", b! "byte"),
  (b! "Cipher", b! "codec", b! "Cipher"),
  (b! "Cipher", b! "key", b! "auto"),
  (b! "Modulator", b! "codec", b! "Modulator"),
  (b! "Modulator", b! "NumBitsPerPixel", b! "auto"),
  (b! "SyncPointInserter", b! "codec", b! "SyncPointInserter"),
  (b! "SyncPointInserter", b! "SyncPointDistancePixel", b! "100"),
  (b! "SyncPointInserter", b! "SyncPointRadiusPixel", b! "2"),
  (b! "SyncPointInserter", b! "DataOrientation", b! "1"),
  (b! "SyncPointInserter", b! "NumBitsPerPixel", b! "auto"),
  (b! "MetaData_ReedSolomon1", b! "codec", b! "ReedSolomon"),
  (b! "MetaData_ReedSolomon1", b! "byteParityNumber", b! "20"),
  (b! "MetaData_ReedSolomon1", b! "messageSize", b! "99"),
  (b! "MetaData_Modulator", b! "codec", b! "Modulator"),
  (b! "MetaData_Modulator", b! "NumBitsPerPixel", b! "auto"),
  (b! "FrameUnbuilder", b! "version", b! "1.0.0.0"),
  (b! "FrameUnbuilder", b! "alias", b! "FrameBuilder"),
  (b! "BaseBuilder", b! "blockSize", b! "1"),
  (b! "BaseBuilder", b! "scalingFactor", b! "4"),
  (b! "FrameBuilder", b! "dimensions", b! "4092,2156"),
  (b! "FrameBuilder", b! "fileFormat", b! "TIF"),
  (b! "crc64", b! "POLY64REV", b! "0x42F0E1EBA9EA3693"),
  (b! "crc64", b! "INITIALCRC", b! "0x0000000000000000"),
  (b! "crc32", b! "POLY32REV", b! "0x42F0E1EBA9EA3693"),
  (b! "crc32", b! "INITIALCRC", b! "0x0000000000000000")]

/-- What the built-in format `i` says. -/
def builtinSays (i : Fin 5) : List (Bytes × Bytes × Bytes) := [saidByV7, saidByV6, saidByV5, saidByV4, saidByV3][i]

end Afs.Spec
