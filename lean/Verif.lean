import Verif.Props.Bits
import Verif.Props.Tools
import Verif.Props.InputStream
import Verif.Props.OutputStream
import Verif.Props.Pipe
import Verif.Props.Compressed
import Verif.Props.Compose
import Verif.Props.FileView
import Verif.Props.Dict
import Verif.Props.FieldSet
import Verif.Props.Gaps
import Verif.Props.Replace
import Verif.Props.Path
import Verif.Props.Array
import Verif.Props.Leaves
import Verif.Props.Regex
import Verif.Props.RegexHeap
import Verif.Props.RegexParser
import Verif.Props.Pattern
import Verif.Props.Printable
import Verif.Props.Editor
import Verif.Props.Insert
import Verif.Props.Huffman
import Verif.Props.Deflate
import Verif.Props.Timestamp
import Verif.Props.StringField
import Verif.Props.Newline
import Verif.Props.Metadata
import Verif.Props.MetadataExport
import Verif.Props.Guess
import Verif.Props.Subfile
import Verif.Props.VarInt
import Verif.Props.PrefixInt
import Verif.Props.GitDelta
import Verif.Props.Ole2
import Verif.Props.Bencode
import Verif.Props.GifLzw
import Verif.Props.RleRepr
import Verif.Core.Human
import Verif.Core.FloatError
import Verif.Field.Padding
import Verif.Props.HumanDuration
import Verif.Props.HumanSize
import Verif.Props.HumanText
import Verif.Props.Padding
import Verif.Metadata.ParseDate
import Verif.Props.ParseDate
import Verif.Archive.Lzx
import Verif.Archive.LzxLemmas
import Verif.Archive.LzxJumpLemmas
import Verif.Props.Lzx
import Verif.Spec.Unicode
import Verif.Core.Charset
import Verif.Core.CharsetLemmas
import Verif.Props.Charset
import Verif.Strip.Strip
import Verif.Props.Strip
import Verif.Archive.Bzip2
import Verif.Archive.Bzip2Lemmas
import Verif.Spec.Bzip2
import Verif.Props.Bzip2
import Verif.Field.Seek
import Verif.Props.Seek
import Verif.Formats.Ntfs
import Verif.Props.Ntfs
import Verif.Formats.Asn1
import Verif.Props.Asn1
import Verif.Props.Asn1Text
import Verif.Field.Events
import Verif.Props.Events
import Verif.Field.Static
import Verif.Props.Static
import Verif.Formats.Addresses
import Verif.Props.Addresses
import Verif.Formats.Exif
import Verif.Props.Exif
import Verif.Field.Float
import Verif.Props.Float
import Verif.Formats.JavaDescriptor
import Verif.Formats.JavaPool
import Verif.Formats.Fields
import Verif.Formats.JavaCode
import Verif.Props.JavaDescriptor
import Verif.Props.JavaPool
import Verif.Props.Fields
import Verif.Props.JavaCode
import Verif.Formats.Mbr
import Verif.Formats.MpegAudio
import Verif.Formats.Mp4
import Verif.Props.Mbr
import Verif.Props.MpegAudio
import Verif.Props.Mp4
import Verif.Formats.Jpeg
import Verif.Formats.JpegBlock
import Verif.Props.Jpeg
import Verif.Props.JpegBlock
import Verif.Formats.Mkv
import Verif.Formats.Fat
import Verif.Props.Mkv
import Verif.Props.Fat
import Verif.Formats.Ogg
import Verif.Props.Ogg
import Verif.Formats.Png
import Verif.Props.Records
import Verif.Props.Png
import Verif.Formats.Tar
import Verif.Props.Tar
import Verif.Formats.Zip
import Verif.Props.Zip
import Verif.Formats.Gzip
import Verif.Props.Gzip
import Verif.Formats.Ar
import Verif.Props.Ar
import Verif.Formats.Id3
import Verif.Props.Id3
import Verif.Formats.Riff
import Verif.Props.Riff
import Verif.Formats.Midi
import Verif.Props.Midi
import Verif.Formats.Flv
import Verif.Props.Flv
import Verif.Formats.Flac
import Verif.Props.Flac
import Verif.Formats.Au
import Verif.Props.Au
import Verif.Formats.Aiff
import Verif.Props.Aiff
import Verif.Formats.Gif
import Verif.Props.Gif
import Verif.Formats.Bmp
import Verif.Props.Bmp
import Verif.Formats.Ico
import Verif.Props.Ico
import Verif.Formats.Pcx
import Verif.Props.Pcx
import Verif.Formats.Reader
import Verif.Props.Reader
import Verif.Formats.SevenZip
import Verif.Props.SevenZip
import Verif.Formats.Python
import Verif.Props.Python
import Verif.Formats.Archives
import Verif.Props.Archives
import Verif.Formats.Cab
import Verif.Props.Cab
import Verif.Formats.Rpm
import Verif.Props.Rpm
import Verif.Formats.Bplist
import Verif.Props.Bplist
import Verif.Props.Packed
import Verif.Formats.Tcpdump
import Verif.Props.Tcpdump
import Verif.Formats.Elf
import Verif.Props.Elf
import Verif.Formats.Pe
import Verif.Props.Pe
import Verif.Formats.Macho
import Verif.Props.Macho
import Verif.Formats.Arj
import Verif.Props.Arj
import Verif.Formats.Disks
import Verif.Props.Disks
import Verif.Formats.Mod
import Verif.Props.Mod
import Verif.Formats.Max3ds
import Verif.Props.Max3ds
import Verif.Formats.Real
import Verif.Props.Real
import Verif.Formats.MpegTs
import Verif.Props.MpegTs
import Verif.Grep.Grep
import Verif.Props.Grep
import Verif.Formats.JpegMeta
import Verif.Props.JpegMeta
import Verif.Formats.Iptc
import Verif.Props.Iptc
import Verif.Props.Limits
import Verif.Formats.DsStore
import Verif.Props.DsStore
import Verif.Formats.Tiff
import Verif.Props.Tiff
import Verif.Formats.Psd
import Verif.Props.Psd
import Verif.Formats.Pcf
import Verif.Props.Pcf
import Verif.Formats.Asf
import Verif.Props.Asf
import Verif.Formats.Lnk
import Verif.Props.Lnk
import Verif.Formats.Rar
import Verif.Props.Rar
import Verif.Formats.Mp3Meta
import Verif.Props.Mp3Meta
import Verif.Props.Limits2
import Verif.Formats.Swf
import Verif.Props.Swf
import Verif.Formats.Xm
import Verif.Props.Xm
import Verif.Metadata.Archive
import Verif.Props.ArchiveMeta
import Verif.Metadata.NamedDate
import Verif.Props.NamedDate
import Verif.Metadata.Ogg
import Verif.Props.OggMeta
import Verif.Props.OggFile
import Verif.Formats.Ext2
import Verif.Props.Ext2
import Verif.Props.Ext2Files
import Verif.Formats.Ttf
import Verif.Metadata.Ttf
import Verif.Props.TtfNames
import Verif.Props.Ttf
import Verif.Formats.Garmin
import Verif.Formats.Summary
import Verif.Metadata.Ole2
import Verif.Props.Garmin
import Verif.Props.Summary
import Verif.Props.SummaryMeta
import Verif.Formats.JavaSerial
import Verif.Props.JavaSerial
import Verif.Metadata.Torrent
import Verif.Props.TorrentMeta
import Verif.Formats.PngData
import Verif.Props.PngData
import Verif.Formats.Xcf
import Verif.Props.Xcf
import Verif.Formats.Keyring
import Verif.Props.Keyring
import Verif.Formats.MsTask
import Verif.Props.MsTask
import Verif.Subfile.DataRate
import Verif.Props.DataRate
import Verif.Formats.Msdos
import Verif.Props.Msdos
import Verif.Formats.Bom
import Verif.Props.Bom
import Verif.Formats.Prc
import Verif.Props.Prc
import Verif.Formats.Laf
import Verif.Props.Laf
import Verif.Formats.Reiser
import Verif.Props.Reiser
import Verif.Core.Log
import Verif.Props.Log
import Verif.Core.Timeout
import Verif.Props.Timeout
import Verif.Wx.FileCache
import Verif.Props.FileCache
import Verif.Wx.HexView
import Verif.Props.HexView
import Verif.Wx.TreeView
import Verif.Props.TreeView
import Verif.Core.Memory
import Verif.Props.Memory
import Verif.Wx.FieldView
import Verif.Props.FieldView
import Verif.Metadata.Iso
import Verif.Props.IsoMeta
import Verif.Formats.Hlp
import Verif.Props.Hlp
import Verif.Formats.Spider
import Verif.Props.Spider
import Verif.Formats.Pifv
import Verif.Props.Pifv
import Verif.Formats.Nds
import Verif.Props.Nds
import Verif.Formats.Blp
import Verif.Props.Blp
import Verif.Core.Benchmark
import Verif.Props.Benchmark
import Verif.Metadata.Command
import Verif.Props.Command
import Verif.Wx.Walker
import Verif.Props.Walker
import Verif.Formats.Ace
import Verif.Props.Ace
import Verif.Formats.Wmf
import Verif.Props.Wmf
import Verif.Formats.Model3do
import Verif.Props.Model3do
import Verif.Metadata.Wmf
import Verif.Props.WmfMeta
import Verif.Metadata.Csv
import Verif.Props.Csv
import Verif.Formats.Modplug
import Verif.Props.Modplug
import Verif.Metadata.Program
import Verif.Props.Program
import Verif.Subfile.Output
import Verif.Props.Carved
