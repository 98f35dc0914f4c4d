import Verif.Common
import Verif.Bits
import Verif.Queue.Props
import Verif.BaseN.Props
import Verif.BufFilter.Props
import Verif.Padding.Props
import Verif.Words
import Verif.IterHash.Props
import Verif.Hmac.Props
import Verif.Mem
import Verif.Stream.Props
import Verif.HashFilter.Props
import Verif.Keccak.Props
import Verif.Modes.Props
import Verif.Integer.Props
import Verif.Asn.Props
import Verif.Integer.MulProps
import Verif.Integer.DivProps
import Verif.Integer.ModProps
import Verif.Aes.Props
import Verif.Algebra.Props
import Verif.Integer.ModExpProps
import Verif.Cipher.Props
import Verif.Cipher.ClassicProps
import Verif.Checksum.Props
import Verif.Buf.Props
import Verif.Gf.Props
import Verif.MQueue.Props
import Verif.Ida.Props
import Verif.Rng.Props
import Verif.Kdf.Props
import Verif.Dl.Props
import Verif.Rsa.Props
import Verif.PkPad.Props
import Verif.Tf.Props
import Verif.Xts.Props
import Verif.Poly1305.Props
import Verif.Ghash.Props
import Verif.Auth.Props
import Verif.Gcm.Props
import Verif.Drbg.Props
import Verif.Ecp.Props
import Verif.Ecp.GroupProps
import Verif.Nbt.Props
import Verif.Sha.Props
import Verif.Flate.HuffmanProps
import Verif.Flate.InflatorProps
import Verif.Flate.SafetyProps
import Verif.Flate.DeflatorProps
import Verif.Gzip.Props
import Verif.Chacha.Props
import Verif.Cmac.Props
import Verif.Ccm.Props
import Verif.Eax.Props
import Verif.AuthFilter.Props
import Verif.Serpent.Props
import Verif.Cipher.ModernProps
import Verif.SigFilter.Props
import Verif.Blake2.Props
import Verif.Salsa.Props
import Verif.Scrypt.Props
import Verif.SipHash.Props
import Verif.Arc4.Props
import Verif.Cipher.SaferProps
import Verif.IntStr.Props
import Verif.ArraySink.Props
import Verif.SecBlock.Props
import Verif.SecBlock.FixedProps
