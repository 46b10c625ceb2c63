import Verif.Model.Basic
/-!
# The boxing formats of control frames that are built into the library (src/controlframeboxingformat.c)

Generated from the byte arrays by tools/builtin.py.  The arrays hold ASCII only; they are written here as text, line by line.
-/
namespace Afs

/-- `afs_reel_4k_controlframe_v7` (src/controlframeboxingformat.c:4-439). -/
def builtinV7 : List Bytes := [
  b! "<?xml version=\"1.0\" ?>\n",
  b! "<work version=\"1.0.0.0\">\n",
  b! "    <class key=\"FormatInfo\">\n",
  b! "        <property key=\"name\" value=\"4k-controlframe-v7\"/>\n",
  b! "        <property key=\"shortDescription\" value=\"4k control data frame format\"/>\n",
  b! "        <property key=\"description\" value=\"Frames are generated using the Generic Preservation Format v1.1 printed on a 4096x2160 raster\"/>\n",
  b! "    </class>\n",
  b! "    <class key=\"FrameFormat\">\n",
  b! "        <property key=\"type\" value=\"GPFv1.1\"/>\n",
  b! "        <property key=\"width\" value=\"1024\"/>\n",
  b! "        <property key=\"height\" value=\"540\"/>\n",
  b! "        <property key=\"border\" value=\"1\"/>\n",
  b! "        <property key=\"borderGap\" value=\"1\"/>\n",
  b! "        <property key=\"cornerMarkSize\" value=\"32\"/>\n",
  b! "        <property key=\"cornerMarkGap\" value=\"1\"/>\n",
  b! "        <property key=\"tilesPerColumn\" value=\"4\"/>\n",
  b! "\t\t<property key=\"refBarSyncDistance\" value=\"66\"/>\n",
  b! "\t\t<property key=\"refBarSyncOffset\" value=\"16\"/>\n",
  b! "        <!-- color dept = log2(maxLevelsPerSymbol) -->\n",
  b! "        <property key=\"maxLevelsPerSymbol\" value=\"2\"/> \n",
  b! "    </class>\n",
  b! "\t<class key=\"FrameRaster\">\n",
  b! "        <property key=\"width\" value=\"4096\"/>\n",
  b! "        <property key=\"height\" value=\"2160\"/>\n",
  b! "\t\t<property key=\"scalingFactor\" value=\"4\"/> \n",
  b! "\t</class>\n",
  b! "    <class key=\"CodecDispatcher\"><!-- Frame coding scheme -->\n",
  b! "\t\t<property key=\"version\" value=\"1.0\"/>\n",
  b! "        <!-- The order the encoder process is specified, default value: encode -->\n",
  b! "        <property key=\"order\" value=\"decode\"/>\n",
  b! "        <!-- symbol alignment default: bit -->\n",
  b! "        <property key=\"symbolAlignment\" value=\"byte\"/>\n",
  b! "        <property key=\"DataCodingScheme\" value=\"SyncPointInserter,Modulator,Cipher,FInterleave,RS_inner,XInterleave,RS_outer,CRC,PacketHeader\"/>\n",
  b! "        <property key=\"MetadataCodingScheme\" value=\"MetaData_Modulator,MetaData_Cipher,MetaData_XInterleave,MetaData_ReedSolomon,MetaData_CRC,PacketHeader\"/>\n",
  b! "    </class>\n",
  b! "    <class key=\"PacketHeader\">\n",
  b! "        <property key=\"codec\" value=\"PacketHeader\"/>    \n",
  b! "\t</class>\n",
  b! "\t<class key=\"CRC\">\n",
  b! "        <property key=\"codec\" value=\"CRC64\"/>\n",
  b! "        <property key=\"polynom\" value=\"0x42F0E1EBA9EA3693\"/>\n",
  b! "        <property key=\"seed\" value=\"0x0000000000000000\"/>\n",
  b! "    </class>\n",
  b! "    <class key=\"RS_outer\">\n",
  b! "        <property key=\"codec\" value=\"ReedSolomon\"/>\n",
  b! "        <property key=\"byteParityNumber\" value=\"20\"/>\n",
  b! "        <property key=\"messageSize\" value=\"172\"/>\n",
  b! "    </class>\n",
  b! "    <class key=\"XInterleave\">\n",
  b! "        <property key=\"codec\" value=\"Interleaving\"/>\n",
  b! "        <property key=\"distance\" value=\"192\"/>\n",
  b! "        <!-- interleaving symboltype; block, frame -->\n",
  b! "        <property key=\"interleavingtype\" value=\"block\"/>\n",
  b! "        <!-- interleaving symboltype; byte, bit -->\n",
  b! "        <property key=\"symboltype\" value=\"byte\"/>\n",
  b! "    </class>\n",
  b! "    <class key=\"RS_inner\">\n",
  b! "        <property key=\"codec\" value=\"ReedSolomon\"/>\n",
  b! "        <property key=\"byteParityNumber\" value=\"16\"/>\n",
  b! "        <property key=\"messageSize\" value=\"192\"/>\n",
  b! "    </class>\n",
  b! "    <class key=\"FInterleave\">\n",
  b! "        <property key=\"codec\" value=\"Interleaving\"/>\n",
  b! "        <property key=\"distance\" value=\"239\"/>\n",
  b! "        <property key=\"interleavingtype\" value=\"block\"/>\n",
  b! "        <!-- interleaving symboltype; byte, bit -->\n",
  b! "        <property key=\"symboltype\" value=\"byte\"/>\n",
  b! "    </class>\n",
  b! "    <class key=\"Cipher\">\n",
  b! "        <property key=\"codec\" value=\"Cipher\"/>\n",
  b! "        <!-- chipher key ; 'auto' , 'any number supported by the chiper class' -->\n",
  b! "        <property key=\"key\" value=\"auto\"/>\n",
  b! "    </class>\n",
  b! "    <class key=\"Modulator\">\n",
  b! "        <property key=\"codec\" value=\"Modulator\"/>\n",
  b! "        <!-- NumBitsPerPixel; auto - any supported color depth -->\n",
  b! "        <property key=\"NumBitsPerPixel\" value=\"auto\"/>\n",
  b! "    </class>\n",
  b! "    <class key=\"SyncPointInserter\">\n",
  b! "        <property key=\"codec\" value=\"SyncPointInserter\"/>\n",
  b! "        <property key=\"SyncPointDistancePixel\" value=\"100\"/>\n",
  b! "        <property key=\"SyncPointRadiusPixel\" value=\"2\"/>\n",
  b! "        <property key=\"DataOrientation\" value=\"1\"/>\n",
  b! "        <!-- NumBitsPerPixel; auto - any supported color depth -->\n",
  b! "        <property key=\"NumBitsPerPixel\" value=\"auto\"/>\n",
  b! "    </class>\n",
  b! "\t<class key=\"MetaData_CRC\">\n",
  b! "        <property key=\"codec\" value=\"CRC32\"/>\n",
  b! "        <property key=\"polynom\" value=\"0x1EDC6F41\"/>\n",
  b! "        <property key=\"seed\" value=\"0x00000000\"/>\n",
  b! "    </class>\n",
  b! "    <class key=\"MetaData_ReedSolomon\">\n",
  b! "        <property key=\"codec\" value=\"ReedSolomon\"/>\n",
  b! "        <property key=\"byteParityNumber\" value=\"20\"/>\n",
  b! "        <property key=\"messageSize\" value=\"99\"/>\n",
  b! "    </class>\n",
  b! "    <class key=\"MetaData_XInterleave\">\n",
  b! "        <property key=\"codec\" value=\"Interleaving\"/>\n",
  b! "        <property key=\"distance\" value=\"247\"/>\n",
  b! "        <!-- interleaving symboltype; block, frame -->\n",
  b! "        <property key=\"interleavingtype\" value=\"block\"/>\n",
  b! "        <!-- interleaving symboltype; byte,bit -->\n",
  b! "        <property key=\"symboltype\" value=\"byte\"/>\n",
  b! "    </class>\n",
  b! "\t<class key=\"MetaData_Modulator\">\n",
  b! "        <property key=\"codec\" value=\"Modulator\"/>\n",
  b! "        <!-- NumBitsPerPixel; auto - any supported color depth -->\n",
  b! "        <property key=\"NumBitsPerPixel\" value=\"auto\"/>\n",
  b! "    </class>\n",
  b! "\t<class key=\"MetaData_Cipher\">\n",
  b! "        <property key=\"codec\" value=\"Cipher\"/>\n",
  b! "        <!-- chipher key ; 'auto' , 'any number supported by the chiper class' -->\n",
  b! "        <property key=\"key\" value=\"1\"/>\n",
  b! "    </class>\t\n",
  b! "</work>\n",
  b! "\n",
  b! "\n",
  b! "\n"]

/-- `afs_reel_4k_controlframe_v6` (src/controlframeboxingformat.c:443-878). -/
def builtinV6 : List Bytes := [
  b! "<?xml version=\"1.0\" ?>\n",
  b! "<work version=\"1.0.0.0\">\n",
  b! "    <class key=\"FormatInfo\">\n",
  b! "        <property key=\"name\" value=\"4k-controlframe-v6\"/>\n",
  b! "        <property key=\"shortDescription\" value=\"4k control data frame format\"/>\n",
  b! "        <property key=\"description\" value=\"Frames are generated using the Generic Preservation Format v1.0 printed on a 4096x2160 raster\"/>\n",
  b! "    </class>\n",
  b! "    <class key=\"FrameFormat\">\n",
  b! "        <property key=\"type\" value=\"GPFv1.0\"/>\n",
  b! "        <property key=\"width\" value=\"1024\"/>\n",
  b! "        <property key=\"height\" value=\"540\"/>\n",
  b! "        <property key=\"border\" value=\"1\"/>\n",
  b! "        <property key=\"borderGap\" value=\"1\"/>\n",
  b! "        <property key=\"cornerMarkSize\" value=\"32\"/>\n",
  b! "        <property key=\"cornerMarkGap\" value=\"1\"/>\n",
  b! "        <property key=\"tilesPerColumn\" value=\"4\"/>\n",
  b! "\t\t<property key=\"refBarSyncDistance\" value=\"32\"/>\n",
  b! "\t\t<property key=\"refBarSyncOffset\" value=\"16\"/>\n",
  b! "        <!-- color dept = log2(maxLevelsPerSymbol) -->\n",
  b! "        <property key=\"maxLevelsPerSymbol\" value=\"2\"/> \n",
  b! "    </class>\n",
  b! "\t<class key=\"FrameRaster\">\n",
  b! "        <property key=\"width\" value=\"4096\"/>\n",
  b! "        <property key=\"height\" value=\"2160\"/>\n",
  b! "\t\t<property key=\"scalingFactor\" value=\"4\"/> \n",
  b! "\t</class>\n",
  b! "    <class key=\"CodecDispatcher\"><!-- Frame coding scheme -->\n",
  b! "\t\t<property key=\"version\" value=\"1.0\"/>\n",
  b! "        <!-- The order the encoder process is specified, default value: encode -->\n",
  b! "        <property key=\"order\" value=\"decode\"/>\n",
  b! "        <!-- symbol alignment default: bit -->\n",
  b! "        <property key=\"symbolAlignment\" value=\"byte\"/>\n",
  b! "        <property key=\"DataCodingScheme\" value=\"SyncPointInserter,Modulator,Cipher,FInterleave,RS_inner,XInterleave,RS_outer,CRC,PacketHeader\"/>\n",
  b! "        <property key=\"MetadataCodingScheme\" value=\"MetaData_Modulator,MetaData_Cipher,MetaData_XInterleave,MetaData_ReedSolomon,MetaData_CRC,PacketHeader\"/>\n",
  b! "    </class>\n",
  b! "    <class key=\"PacketHeader\">\n",
  b! "        <property key=\"codec\" value=\"PacketHeader\"/>    \n",
  b! "\t</class>\n",
  b! "\t<class key=\"CRC\">\n",
  b! "        <property key=\"codec\" value=\"CRC64\"/>\n",
  b! "        <property key=\"polynom\" value=\"0x42F0E1EBA9EA3693\"/>\n",
  b! "        <property key=\"seed\" value=\"0x0000000000000000\"/>\n",
  b! "    </class>\n",
  b! "    <class key=\"RS_outer\">\n",
  b! "        <property key=\"codec\" value=\"ReedSolomon\"/>\n",
  b! "        <property key=\"byteParityNumber\" value=\"20\"/>\n",
  b! "        <property key=\"messageSize\" value=\"172\"/>\n",
  b! "    </class>\n",
  b! "    <class key=\"XInterleave\">\n",
  b! "        <property key=\"codec\" value=\"Interleaving\"/>\n",
  b! "        <property key=\"distance\" value=\"192\"/>\n",
  b! "        <!-- interleaving symboltype; block, frame -->\n",
  b! "        <property key=\"interleavingtype\" value=\"block\"/>\n",
  b! "        <!-- interleaving symboltype; byte, bit -->\n",
  b! "        <property key=\"symboltype\" value=\"byte\"/>\n",
  b! "    </class>\n",
  b! "    <class key=\"RS_inner\">\n",
  b! "        <property key=\"codec\" value=\"ReedSolomon\"/>\n",
  b! "        <property key=\"byteParityNumber\" value=\"16\"/>\n",
  b! "        <property key=\"messageSize\" value=\"192\"/>\n",
  b! "    </class>\n",
  b! "    <class key=\"FInterleave\">\n",
  b! "        <property key=\"codec\" value=\"Interleaving\"/>\n",
  b! "        <property key=\"distance\" value=\"239\"/>\n",
  b! "        <property key=\"interleavingtype\" value=\"block\"/>\n",
  b! "        <!-- interleaving symboltype; byte, bit -->\n",
  b! "        <property key=\"symboltype\" value=\"byte\"/>\n",
  b! "    </class>\n",
  b! "    <class key=\"Cipher\">\n",
  b! "        <property key=\"codec\" value=\"Cipher\"/>\n",
  b! "        <!-- chipher key ; 'auto' , 'any number supported by the chiper class' -->\n",
  b! "        <property key=\"key\" value=\"auto\"/>\n",
  b! "    </class>\n",
  b! "    <class key=\"Modulator\">\n",
  b! "        <property key=\"codec\" value=\"Modulator\"/>\n",
  b! "        <!-- NumBitsPerPixel; auto - any supported color depth -->\n",
  b! "        <property key=\"NumBitsPerPixel\" value=\"auto\"/>\n",
  b! "    </class>\n",
  b! "    <class key=\"SyncPointInserter\">\n",
  b! "        <property key=\"codec\" value=\"SyncPointInserter\"/>\n",
  b! "        <property key=\"SyncPointDistancePixel\" value=\"100\"/>\n",
  b! "        <property key=\"SyncPointRadiusPixel\" value=\"2\"/>\n",
  b! "        <property key=\"DataOrientation\" value=\"1\"/>\n",
  b! "        <!-- NumBitsPerPixel; auto - any supported color depth -->\n",
  b! "        <property key=\"NumBitsPerPixel\" value=\"auto\"/>\n",
  b! "    </class>\n",
  b! "\t<class key=\"MetaData_CRC\">\n",
  b! "        <property key=\"codec\" value=\"CRC32\"/>\n",
  b! "        <property key=\"polynom\" value=\"0x1EDC6F41\"/>\n",
  b! "        <property key=\"seed\" value=\"0x00000000\"/>\n",
  b! "    </class>\n",
  b! "    <class key=\"MetaData_ReedSolomon\">\n",
  b! "        <property key=\"codec\" value=\"ReedSolomon\"/>\n",
  b! "        <property key=\"byteParityNumber\" value=\"20\"/>\n",
  b! "        <property key=\"messageSize\" value=\"99\"/>\n",
  b! "    </class>\n",
  b! "    <class key=\"MetaData_XInterleave\">\n",
  b! "        <property key=\"codec\" value=\"Interleaving\"/>\n",
  b! "        <property key=\"distance\" value=\"247\"/>\n",
  b! "        <!-- interleaving symboltype; block, frame -->\n",
  b! "        <property key=\"interleavingtype\" value=\"block\"/>\n",
  b! "        <!-- interleaving symboltype; byte,bit -->\n",
  b! "        <property key=\"symboltype\" value=\"byte\"/>\n",
  b! "    </class>\n",
  b! "\t<class key=\"MetaData_Modulator\">\n",
  b! "        <property key=\"codec\" value=\"Modulator\"/>\n",
  b! "        <!-- NumBitsPerPixel; auto - any supported color depth -->\n",
  b! "        <property key=\"NumBitsPerPixel\" value=\"auto\"/>\n",
  b! "    </class>\n",
  b! "\t<class key=\"MetaData_Cipher\">\n",
  b! "        <property key=\"codec\" value=\"Cipher\"/>\n",
  b! "        <!-- chipher key ; 'auto' , 'any number supported by the chiper class' -->\n",
  b! "        <property key=\"key\" value=\"1\"/>\n",
  b! "    </class>\t\n",
  b! "</work>\n",
  b! "\n",
  b! "\n",
  b! "\n"]

/-- `afs_reel_4k_controlframe_v5` (src/controlframeboxingformat.c:882-1266). -/
def builtinV5 : List Bytes := [
  b! "<?xml version=\"1.0\" ?>\n",
  b! "<work version=\"1.0.0.0\">\n",
  b! "    <class key=\"FormatInfo\">\n",
  b! "        <property key=\"name\" value=\"4k-controlframe-v5\"/>\n",
  b! "        <property key=\"shortDescription\" value=\"4k control data frame format\"/>\n",
  b! "        <property key=\"description\" value=\"Frames are generated using the Generic Preservation Format v1.0 printed on a 4096x2160 raster\"/>\n",
  b! "    </class>\n",
  b! "    <class key=\"FrameFormat\">\n",
  b! "        <property key=\"type\" value=\"GPFv1.0\"/>\n",
  b! "        <property key=\"width\" value=\"1024\"/>\n",
  b! "        <property key=\"height\" value=\"540\"/>\n",
  b! "        <property key=\"border\" value=\"1\"/>\n",
  b! "        <property key=\"borderGap\" value=\"1\"/>\n",
  b! "        <property key=\"cornerMarkSize\" value=\"32\"/>\n",
  b! "        <property key=\"cornerMarkGap\" value=\"1\"/>\n",
  b! "        <property key=\"tilesPerColumn\" value=\"4\"/>\n",
  b! "        <!-- color dept = log2(maxLevelsPerSymbol) -->\n",
  b! "        <property key=\"maxLevelsPerSymbol\" value=\"2\"/> \n",
  b! "    </class>\n",
  b! "\t<class key=\"FrameRaster\">\n",
  b! "        <property key=\"width\" value=\"4096\"/>\n",
  b! "        <property key=\"height\" value=\"2160\"/>\n",
  b! "\t\t<property key=\"scalingFactor\" value=\"4\"/> \n",
  b! "\t</class>\n",
  b! "    <class key=\"CodecDispatcher\"><!-- Frame coding scheme -->\n",
  b! "        <!-- The order the encoder process is specified, default value: encode -->\n",
  b! "        <property key=\"order\" value=\"decode\"/>\n",
  b! "        <!-- symbol alignment default: bit -->\n",
  b! "        <property key=\"symbolAlignment\" value=\"byte\"/>\n",
  b! "        <property key=\"DataCodingScheme\" value=\"SyncPointInserter,Modulator,Cipher,Interleaving_inner,ReedSolomon_inner,Interleaving_outer,ReedSolomon_outer\"/>\n",
  b! "        <property key=\"MetadataCodingScheme\" value=\"MetaData_Modulator,MetaData_Cipher,MetaData_ReedSolomon\"/>\n",
  b! "    </class>\n",
  b! "    <class key=\"ReedSolomon_outer\">\n",
  b! "        <property key=\"codec\" value=\"ReedSolomon\"/>\n",
  b! "        <property key=\"byteParityNumber\" value=\"20\"/>\n",
  b! "        <property key=\"messageSize\" value=\"172\"/>\n",
  b! "    </class>\n",
  b! "    <class key=\"Interleaving_outer\">\n",
  b! "        <property key=\"codec\" value=\"Interleaving\"/>\n",
  b! "        <property key=\"distance\" value=\"192\"/>\n",
  b! "        <!-- interleaving symboltype; block, frame -->\n",
  b! "        <property key=\"interleavingtype\" value=\"block\"/>\n",
  b! "        <!-- interleaving symboltype; byte, bit -->\n",
  b! "        <property key=\"symboltype\" value=\"byte\"/>\n",
  b! "    </class>\n",
  b! "    <class key=\"ReedSolomon_inner\">\n",
  b! "        <property key=\"codec\" value=\"ReedSolomon\"/>\n",
  b! "        <property key=\"byteParityNumber\" value=\"16\"/>\n",
  b! "        <property key=\"messageSize\" value=\"192\"/>\n",
  b! "    </class>\n",
  b! "    <class key=\"Interleaving_inner\">\n",
  b! "        <property key=\"codec\" value=\"Interleaving\"/>\n",
  b! "        <property key=\"distance\" value=\"239\"/>\n",
  b! "        <property key=\"interleavingtype\" value=\"block\"/>\n",
  b! "        <!-- interleaving symboltype; byte, bit -->\n",
  b! "        <property key=\"symboltype\" value=\"byte\"/>\n",
  b! "    </class>\n",
  b! "    <class key=\"Cipher\">\n",
  b! "        <property key=\"codec\" value=\"Cipher\"/>\n",
  b! "        <!-- chipher key ; 'auto' , 'any number supported by the chiper class' -->\n",
  b! "        <property key=\"key\" value=\"auto\"/>\n",
  b! "    </class>\n",
  b! "    <class key=\"Modulator\">\n",
  b! "        <property key=\"codec\" value=\"Modulator\"/>\n",
  b! "        <!-- NumBitsPerPixel; auto - any supported color depth -->\n",
  b! "        <property key=\"NumBitsPerPixel\" value=\"auto\"/>\n",
  b! "    </class>\n",
  b! "    <class key=\"SyncPointInserter\">\n",
  b! "        <property key=\"codec\" value=\"SyncPointInserter\"/>\n",
  b! "        <property key=\"SyncPointDistancePixel\" value=\"100\"/>\n",
  b! "        <property key=\"SyncPointRadiusPixel\" value=\"2\"/>\n",
  b! "        <property key=\"DataOrientation\" value=\"1\"/>\n",
  b! "        <!-- NumBitsPerPixel; auto - any supported color depth -->\n",
  b! "        <property key=\"NumBitsPerPixel\" value=\"auto\"/>\n",
  b! "    </class>\n",
  b! "    <class key=\"MetaData_ReedSolomon\">\n",
  b! "        <property key=\"codec\" value=\"ReedSolomon\"/>\n",
  b! "        <property key=\"byteParityNumber\" value=\"20\"/>\n",
  b! "        <property key=\"messageSize\" value=\"99\"/>\n",
  b! "        <!--<property key=\"messageSize\" value=\"32\"/> -->\n",
  b! "    </class>\n",
  b! "\t<class key=\"MetaData_Modulator\">\n",
  b! "        <property key=\"codec\" value=\"Modulator\"/>\n",
  b! "        <!-- NumBitsPerPixel; auto - any supported color depth -->\n",
  b! "        <property key=\"NumBitsPerPixel\" value=\"auto\"/>\n",
  b! "    </class>\n",
  b! "\t<class key=\"MetaData_Cipher\">\n",
  b! "        <property key=\"codec\" value=\"Cipher\"/>\n",
  b! "        <!-- chipher key ; 'auto' , 'any number supported by the chiper class' -->\n",
  b! "        <property key=\"key\" value=\"1\"/>\n",
  b! "    </class>\t\n",
  b! "    <class key=\"crc64\">\n",
  b! "        <property key=\"POLY64REV\" value=\"0x42F0E1EBA9EA3693\"/>\n",
  b! "        <property key=\"INITIALCRC\" value=\"0x0000000000000000\"/>\n",
  b! "    </class>\n",
  b! "    <class key=\"crc32\">\n",
  b! "        <property key=\"POLY32REV\" value=\"0x42F0E1EBA9EA3693\"/>\n",
  b! "        <property key=\"INITIALCRC\" value=\"0x0000000000000000\"/>\n",
  b! "    </class>\n",
  b! "</work>\n",
  b! "\n",
  b! "\n",
  b! "\n"]

/-- `afs_reel_4k_controlframe_v4` (src/controlframeboxingformat.c:1270-1781). -/
def builtinV4 : List Bytes := [
  b! "<?xml version=\"1.0\" ?>\n",
  b! "<work version=\"1.0.0.0\">\n",
  b! "    <class key=\"FormatInfo\">\n",
  b! "        <property key=\"name\" value=\"4k-controlframe-v4\"/>\n",
  b! "        <property key=\"shortDescription\" value=\"4k control data frame format\"/>\n",
  b! "        <property key=\"description\" value=\"Frames are generated using the Generic Preservation Format v1.0 printed on a 4096x2160 raster\"/>\n",
  b! "    </class>\n",
  b! "\n",
  b! "    <class key=\"FrameFormat\">\n",
  b! "        <property key=\"type\" value=\"GPFv1.0\"/>\n",
  b! "        <property key=\"width\" value=\"1024\"/>\n",
  b! "        <property key=\"height\" value=\"540\"/>\n",
  b! "        <property key=\"border\" value=\"1\"/>\n",
  b! "        <property key=\"borderGap\" value=\"1\"/>\n",
  b! "        <property key=\"cornerMarkSize\" value=\"32\"/>\n",
  b! "        <property key=\"cornerMarkGap\" value=\"1\"/>\n",
  b! "        <property key=\"tilesPerColumn\" value=\"4\"/>\n",
  b! "        <!-- color dept = log2(levelsPerSymbol) -->\n",
  b! "        <property key=\"maxLevelsPerSymbol\" value=\"2\"/> \n",
  b! "    </class>\n",
  b! "\n",
  b! "    <!-- First the geometrical values. These can result in general definition files -->\n",
  b! "    <class key=\"FrameBuilder\"> <!-- builder spesific -->\n",
  b! "        <!-- <property key=\"dimensions\" value=\"4096,2160\"/> -->\n",
  b! "        <!-- The type is: TIF, RAW, BMP, PNG -->\n",
  b! "        <property key=\"fileFormat\" value=\"RAW\"/>\n",
  b! "    </class>\n",
  b! "    \n",
  b! "    <class key=\"ImageRaw\"  version=\"1.0.0.0\"> <!-- builder spesific -->\n",
  b! "        <property key=\"rawVersion\" value=\"1\" />\n",
  b! "        <property key=\"holes\" value=\"3\" />\n",
  b! "    </class>\n",
  b! "    \n",
  b! "    <!-- Note: The frame unbuilder inherits the values from the FrameBuilder \n",
  b! "       through the alias property -->\n",
  b! "    <class key=\"FrameUnbuilder\" version=\"1.0.0.0\"> <!-- builder spesific -->\n",
  b! "        <property key=\"alias\" value=\"FrameBuilder\"/>\n",
  b! "    </class>\n",
  b! "    \n",
  b! "    <!-- Frame coding scheme -->\n",
  b! "    <class key=\"CodecDispatcher\">\n",
  b! "        <!-- The order the encoder process is specified, default value: encode -->\n",
  b! "        <property key=\"order\" value=\"decode\"/>\n",
  b! "        <!-- symbol alignment default: bit -->\n",
  b! "        <property key=\"symbolAlignment\" value=\"byte\"/>\n",
  b! "\n",
  b! "        <!-- <property key=\"process\" value=\"SyncPointInserter,Modulator,Cipher,Interleaving2,ReedSolomon2,Interleaving1,ReedSolomon1\"/> -->\n",
  b! "        <property key=\"DataCodingScheme\" value=\"SyncPointInserter,Modulator,Cipher,Interleaving2,ReedSolomon2,Interleaving1,ReedSolomon1\"/>\n",
  b! "        <property key=\"MetadataCodingScheme\" value=\"MetaData_Modulator,MetaData_Cipher,MetaData_ReedSolomon1\"/>\n",
  b! "\n",
  b! "    </class>\n",
  b! "    <class key=\"ReedSolomon1\">\n",
  b! "        <property key=\"codec\" value=\"ReedSolomon\"/>\n",
  b! "        <property key=\"byteParityNumber\" value=\"20\"/>\n",
  b! "        <property key=\"messageSize\" value=\"172\"/>\n",
  b! "    </class>\n",
  b! "    <class key=\"Interleaving1\">\n",
  b! "        <property key=\"codec\" value=\"Interleaving\"/>\n",
  b! "        <property key=\"distance\" value=\"192\"/>\n",
  b! "        <!-- interleaving symboltype; block, frame -->\n",
  b! "        <property key=\"interleavingtype\" value=\"block\"/>\n",
  b! "        <!-- interleaving symboltype; byte,bit -->\n",
  b! "        <property key=\"symboltype\" value=\"byte\"/>\n",
  b! "    </class>\n",
  b! "    <class key=\"ReedSolomon2\">\n",
  b! "        <property key=\"codec\" value=\"ReedSolomon\"/>\n",
  b! "        <property key=\"byteParityNumber\" value=\"16\"/>\n",
  b! "        <property key=\"messageSize\" value=\"192\"/>\n",
  b! "    </class>\n",
  b! "    <class key=\"Interleaving2\">\n",
  b! "        <property key=\"codec\" value=\"Interleaving\"/>\n",
  b! "        <property key=\"distance\" value=\"239\"/>\n",
  b! "        <property key=\"interleavingtype\" value=\"block\"/>\n",
  b! "        <!-- interleaving symboltype; byte,bit -->\n",
  b! "        <property key=\"symboltype\" value=\"byte\"/>\n",
  b! "    </class>\n",
  b! "    <class key=\"Cipher\">\n",
  b! "        <property key=\"codec\" value=\"Cipher\"/>\n",
  b! "        <!-- chipher key ; 'auto' , 'any number supported by the chiper class' -->\n",
  b! "        <property key=\"key\" value=\"auto\"/>\n",
  b! "    </class>\n",
  b! "    <class key=\"Modulator\">\n",
  b! "        <property key=\"codec\" value=\"Modulator\"/>\n",
  b! "        <!-- NumBitsPerPixel; auto - any supported color depth -->\n",
  b! "        <property key=\"NumBitsPerPixel\" value=\"auto\"/>\n",
  b! "    </class>\n",
  b! "    <class key=\"SyncPointInserter\">\n",
  b! "        <property key=\"codec\" value=\"SyncPointInserter\"/>\n",
  b! "        <property key=\"SyncPointDistancePixel\" value=\"100\"/>\n",
  b! "        <property key=\"SyncPointRadiusPixel\" value=\"2\"/>\n",
  b! "        <property key=\"DataOrientation\" value=\"1\"/>\n",
  b! "        <!-- NumBitsPerPixel; auto - any supported color depth -->\n",
  b! "        <property key=\"NumBitsPerPixel\" value=\"auto\"/>\n",
  b! "    </class>\n",
  b! "    <class key=\"MetaData_ReedSolomon1\">\n",
  b! "        <property key=\"codec\" value=\"ReedSolomon\"/>\n",
  b! "        <property key=\"byteParityNumber\" value=\"20\"/>\n",
  b! "        <property key=\"messageSize\" value=\"99\"/>\n",
  b! "        <!--<property key=\"messageSize\" value=\"32\"/> -->\n",
  b! "    </class>\n",
  b! "   <class key=\"MetaData_Modulator\">\n",
  b! "        <property key=\"codec\" value=\"Modulator\"/>\n",
  b! "        <!-- NumBitsPerPixel; auto - any supported color depth -->\n",
  b! "        <property key=\"NumBitsPerPixel\" value=\"auto\"/>\n",
  b! "    </class>\n",
  b! "        <class key=\"MetaData_Cipher\">\n",
  b! "        <property key=\"codec\" value=\"Cipher\"/>\n",
  b! "        <!-- chipher key ; 'auto' , 'any number supported by the chiper class' -->\n",
  b! "        <property key=\"key\" value=\"1\"/>\n",
  b! "    </class>\n",
  b! "\t\n",
  b! "    <!-- Note: The frame unbuilder inherits the values from the FrameBuilder \n",
  b! "       through the alias property -->\n",
  b! "    <class key=\"FrameUnbuilder\" version=\"1.0.0.0\">\n",
  b! "        <property key=\"alias\" value=\"FrameBuilder\"/>\n",
  b! "    </class>\n",
  b! "    \n",
  b! "    <class key=\"BaseBuilder\">\n",
  b! "      <!-- property key=\"forceTraced\" value=\"false\"/ -->\n",
  b! "      <property key=\"blockSize\" value=\"1\"/>\n",
  b! "      <property key=\"scalingFactor\" value=\"4\"/>\n",
  b! "    </class>\n",
  b! "\n",
  b! "    \n",
  b! "    <!-- First the geometrical values. These can result in general definition files -->\n",
  b! "    <class key=\"FrameBuilder\">\n",
  b! "        <property key=\"dimensions\" value=\"4092,2156\"/>\n",
  b! "        <!-- The type is: TIF, RAW, BMP, PNG -->\n",
  b! "        <property key=\"fileFormat\" value=\"TIF\"/>\n",
  b! "    </class>\n",
  b! "\n",
  b! "    <class key=\"crc64\"> <!-- this can be optional -->\n",
  b! "        <property key=\"POLY64REV\" value=\"0x42F0E1EBA9EA3693\"/>\n",
  b! "        <property key=\"INITIALCRC\" value=\"0x0000000000000000\"/>\n",
  b! "    </class>\n",
  b! "    <class key=\"crc32\"> <!-- used by metadata --> <!-- this can be optional -->\n",
  b! "        <property key=\"POLY32REV\" value=\"0x42F0E1EBA9EA3693\"/>\n",
  b! "        <property key=\"INITIALCRC\" value=\"0x0000000000000000\"/>\n",
  b! "    </class>\n",
  b! "</work>\n",
  b! "\n",
  b! "\n",
  b! "\n"]

/-- `afs_reel_4k_controlframe_v3` (src/controlframeboxingformat.c:1785-2277). -/
def builtinV3 : List Bytes := [
  b! "<?xml version=\"1.0\" ?>\n",
  b! "<work version=\"1.0.0.0\">\n",
  b! "    <class key=\"FormatInfo\">\n",
  b! "        <property key=\"name\" value=\"4k-controlframe-v3\"/>\n",
  b! "        <property key=\"shortDescription\" value=\"4k control data frame format\"/>\n",
  b! "        <property key=\"description\" value=\"Frames are generated using the Generic Preservation Format v1.0 printed on a 4096x2160 raster\"/>\n",
  b! "    </class>\n",
  b! "\n",
  b! "    <class key=\"FrameFormat\">\n",
  b! "        <property key=\"type\" value=\"GPFv1.0\"/>\n",
  b! "        <property key=\"width\" value=\"1024\"/>\n",
  b! "        <property key=\"height\" value=\"540\"/>\n",
  b! "        <property key=\"border\" value=\"1\"/>\n",
  b! "        <property key=\"borderGap\" value=\"1\"/>\n",
  b! "        <property key=\"cornerMarkSize\" value=\"32\"/>\n",
  b! "        <property key=\"cornerMarkGap\" value=\"1\"/>\n",
  b! "        <property key=\"tilesPerColumn\" value=\"4\"/>\n",
  b! "        <!-- color dept = log2(levelsPerSymbol) -->\n",
  b! "        <property key=\"maxLevelsPerSymbol\" value=\"2\"/> \n",
  b! "    </class>\n",
  b! "\n",
  b! "    <!-- First the geometrical values. These can result in general definition files -->\n",
  b! "    <class key=\"FrameBuilder\"> <!-- builder spesific -->\n",
  b! "        <!-- <property key=\"dimensions\" value=\"4096,2160\"/> -->\n",
  b! "        <!-- The type is: TIF, RAW, BMP, PNG -->\n",
  b! "        <property key=\"fileFormat\" value=\"RAW\"/>\n",
  b! "    </class>\n",
  b! "    \n",
  b! "    <class key=\"ImageRaw\"  version=\"1.0.0.0\"> <!-- builder spesific -->\n",
  b! "        <property key=\"rawVersion\" value=\"1\" />\n",
  b! "        <property key=\"holes\" value=\"3\" />\n",
  b! "    </class>\n",
  b! "    \n",
  b! "    <!-- Note: The frame unbuilder inherits the values from the FrameBuilder \n",
  b! "       through the alias property -->\n",
  b! "    <class key=\"FrameUnbuilder\" version=\"1.0.0.0\"> <!-- builder spesific -->\n",
  b! "        <property key=\"alias\" value=\"FrameBuilder\"/>\n",
  b! "    </class>\n",
  b! "    \n",
  b! "    <!-- Frame coding scheme -->\n",
  b! "    <class key=\"CodecDispatcher\">\n",
  b! "        <!-- The order the encoder process is specified, default value: encode -->\n",
  b! "        <property key=\"order\" value=\"decode\"/>\n",
  b! "        <!-- symbol alignment default: bit -->\n",
  b! "        <property key=\"symbolAlignment\" value=\"byte\"/>\n",
  b! "\n",
  b! "        <!-- <property key=\"process\" value=\"SyncPointInserter,Modulator,Cipher,Interleaving2,ReedSolomon2,Interleaving1,ReedSolomon1\"/> -->\n",
  b! "        <property key=\"DataCodingScheme\" value=\"SyncPointInserter,Modulator,Cipher,Interleaving2,ReedSolomon2,Interleaving1,ReedSolomon1\"/>\n",
  b! "        <property key=\"MetadataCodingScheme\" value=\"MetaData_Modulator,MetaData_ReedSolomon1\"/>\n",
  b! "\n",
  b! "    </class>\n",
  b! "    <class key=\"ReedSolomon1\">\n",
  b! "        <property key=\"codec\" value=\"ReedSolomon\"/>\n",
  b! "        <property key=\"byteParityNumber\" value=\"20\"/>\n",
  b! "        <property key=\"messageSize\" value=\"172\"/>\n",
  b! "    </class>\n",
  b! "    <class key=\"Interleaving1\">\n",
  b! "        <property key=\"codec\" value=\"Interleaving\"/>\n",
  b! "        <property key=\"distance\" value=\"192\"/>\n",
  b! "        <!-- interleaving symboltype; block, frame -->\n",
  b! "        <property key=\"interleavingtype\" value=\"block\"/>\n",
  b! "        <!-- interleaving symboltype; byte,bit -->\n",
  b! "        <property key=\"symboltype\" value=\"byte\"/>\n",
  b! "    </class>\n",
  b! "    <class key=\"ReedSolomon2\">\n",
  b! "        <property key=\"codec\" value=\"ReedSolomon\"/>\n",
  b! "        <property key=\"byteParityNumber\" value=\"16\"/>\n",
  b! "        <property key=\"messageSize\" value=\"192\"/>\n",
  b! "    </class>\n",
  b! "    <class key=\"Interleaving2\">\n",
  b! "        <property key=\"codec\" value=\"Interleaving\"/>\n",
  b! "        <property key=\"distance\" value=\"239\"/>\n",
  b! "        <property key=\"interleavingtype\" value=\"block\"/>\n",
  b! "        <!-- interleaving symboltype; byte,bit -->\n",
  b! "        <property key=\"symboltype\" value=\"byte\"/>\n",
  b! "    </class>\n",
  b! "    <class key=\"Cipher\">\n",
  b! "        <property key=\"codec\" value=\"Cipher\"/>\n",
  b! "        <!-- chipher key ; 'auto' , 'any number supported by the chiper class' -->\n",
  b! "        <property key=\"key\" value=\"auto\"/>\n",
  b! "    </class>\n",
  b! "    <class key=\"Modulator\">\n",
  b! "        <property key=\"codec\" value=\"Modulator\"/>\n",
  b! "        <!-- NumBitsPerPixel; auto - any supported color depth -->\n",
  b! "        <property key=\"NumBitsPerPixel\" value=\"auto\"/>\n",
  b! "    </class>\n",
  b! "    <class key=\"SyncPointInserter\">\n",
  b! "        <property key=\"codec\" value=\"SyncPointInserter\"/>\n",
  b! "        <property key=\"SyncPointDistancePixel\" value=\"100\"/>\n",
  b! "        <property key=\"SyncPointRadiusPixel\" value=\"2\"/>\n",
  b! "        <property key=\"DataOrientation\" value=\"1\"/>\n",
  b! "        <!-- NumBitsPerPixel; auto - any supported color depth -->\n",
  b! "        <property key=\"NumBitsPerPixel\" value=\"auto\"/>\n",
  b! "    </class>\n",
  b! "    <class key=\"MetaData_ReedSolomon1\">\n",
  b! "        <property key=\"codec\" value=\"ReedSolomon\"/>\n",
  b! "        <property key=\"byteParityNumber\" value=\"20\"/>\n",
  b! "        <property key=\"messageSize\" value=\"99\"/>\n",
  b! "        <!--<property key=\"messageSize\" value=\"32\"/> -->\n",
  b! "    </class>\n",
  b! "   <class key=\"MetaData_Modulator\">\n",
  b! "        <property key=\"codec\" value=\"Modulator\"/>\n",
  b! "        <!-- NumBitsPerPixel; auto - any supported color depth -->\n",
  b! "        <property key=\"NumBitsPerPixel\" value=\"auto\"/>\n",
  b! "    </class>\n",
  b! "    \n",
  b! "    <!-- Note: The frame unbuilder inherits the values from the FrameBuilder \n",
  b! "       through the alias property -->\n",
  b! "    <class key=\"FrameUnbuilder\" version=\"1.0.0.0\">\n",
  b! "        <property key=\"alias\" value=\"FrameBuilder\"/>\n",
  b! "    </class>\n",
  b! "    \n",
  b! "    <class key=\"BaseBuilder\">\n",
  b! "      <!-- property key=\"forceTraced\" value=\"false\"/ -->\n",
  b! "      <property key=\"blockSize\" value=\"1\"/>\n",
  b! "      <property key=\"scalingFactor\" value=\"4\"/>\n",
  b! "    </class>\n",
  b! "\n",
  b! "    \n",
  b! "    <!-- First the geometrical values. These can result in general definition files -->\n",
  b! "    <class key=\"FrameBuilder\">\n",
  b! "        <property key=\"dimensions\" value=\"4092,2156\"/>\n",
  b! "        <!-- The type is: TIF, RAW, BMP, PNG -->\n",
  b! "        <property key=\"fileFormat\" value=\"TIF\"/>\n",
  b! "    </class>\n",
  b! "\n",
  b! "    <class key=\"crc64\"> <!-- this can be optional -->\n",
  b! "        <property key=\"POLY64REV\" value=\"0x42F0E1EBA9EA3693\"/>\n",
  b! "        <property key=\"INITIALCRC\" value=\"0x0000000000000000\"/>\n",
  b! "    </class>\n",
  b! "    <class key=\"crc32\"> <!-- used by metadata --> <!-- this can be optional -->\n",
  b! "        <property key=\"POLY32REV\" value=\"0x42F0E1EBA9EA3693\"/>\n",
  b! "        <property key=\"INITIALCRC\" value=\"0x0000000000000000\"/>\n",
  b! "    </class>\n",
  b! "</work>\n",
  b! "\n",
  b! "\n",
  b! "\n"]

/-- `afs_control_frame_format[i]` for `i < AFS_FRAME_FORMAT_MAX` (src/controlframeboxingformat.c:2280, inc/controlframeboxingformat.h:5-10):
    the bytes of the array.  Nothing follows them in the array, in particular no NUL byte. -/
def builtinFormat (i : Fin 5) : Bytes := ([builtinV7, builtinV6, builtinV5, builtinV4, builtinV3][i]).flatten

/-- `afs_control_frame_format_len[i]` (src/controlframeboxingformat.c:2282). -/
def builtinFormatLen (i : Fin 5) : Nat := [5198, 5198, 4595, 6116, 5882][i]

end Afs
