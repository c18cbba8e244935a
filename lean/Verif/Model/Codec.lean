/-! # Model of the network byte order helpers, lib/utils.c:823-852 -/
namespace Gensio.Codec

/-- `gensio_buf_to_u32`, lib/utils.c:823-830.  `data[0] << 24` is done in `int`; for
`data[0] ≥ 128` C formally overflows `int` (the compilers used define it as wrapping, and
the conversion to `uint32_t` then gives the modelled value). -/
def bufToU32 (d0 d1 d2 d3 : UInt8) : UInt32 :=
  (d0.toUInt32 <<< 24) ||| (d1.toUInt32 <<< 16) ||| (d2.toUInt32 <<< 8) ||| d3.toUInt32

/-- `gensio_u32_to_buf`, lib/utils.c:832-839: the four bytes stored. -/
def u32ToBuf (v : UInt32) : UInt8 × UInt8 × UInt8 × UInt8 :=
  ((v >>> 24).toUInt8, (v >>> 16).toUInt8, (v >>> 8).toUInt8, v.toUInt8)

/-- `gensio_buf_to_u16`, lib/utils.c:841-845. -/
def bufToU16 (d0 d1 : UInt8) : UInt16 := (d0.toUInt16 <<< 8) ||| d1.toUInt16

/-- `gensio_u16_to_buf`, lib/utils.c:847-852. -/
def u16ToBuf (v : UInt16) : UInt8 × UInt8 := ((v >>> 8).toUInt8, v.toUInt8)

end Gensio.Codec
