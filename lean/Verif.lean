import Verif.Model.Outcome
import Verif.Model.Words
import Verif.Model.Bigint
import Verif.Model.BigintNT
import Verif.Model.BigintOps
import Verif.Proof.Div
import Verif.Props.BigArith
import Verif.Props.BigBits
import Verif.Props.BigNT
import Verif.Props.Fp
import Verif.Props.Ec
import Verif.Props.Utils
import Verif.Props.Curves
import Verif.Props.Ecdsa
import Verif.Props.Rsa
import Verif.Props.Powm
import Verif.Props.Sha
import Verif.Props.Keccak
import Verif.Props.Buffer
import Verif.Props.Alias
import Verif.Props.Formula
import Verif.Props.Array
import Verif.Props.Contract
import Verif.Props.EcGeneric
import Verif.Props.Native
import Verif.Props.Move
import Verif.Props.AliasNT
import Verif.Props.Life
import Verif.Props.AliasFp
import Verif.Props.QuotRem
import Verif.Props.EcProg
import Verif.Props.EcTotal
import Verif.Props.KeyProg
import Verif.Props.NamedMem
import Verif.Props.Exact
import Verif.Props.KeyTotal
import Verif.Props.RsaBind
import Verif.Props.CurveMem
import Verif.Props.Action
import Verif.Props.FeProg
import Verif.Props.PtProg
import Verif.Props.Query
import Verif.Props.Views
import Verif.Props.IntProg
import Verif.Props.Client
import Verif.Props.RsaMem
import Verif.Props.Print
import Verif.Props.FeClient
import Verif.Props.Passes
import Verif.Props.DivPasses
import Verif.Props.EcdsaBind
import Verif.Props.RsaOnly
import Verif.Props.Keys
import Verif.Props.IntTotal
import Verif.Props.IntFix
import Verif.Props.PssAny
import Verif.Props.EcdsaWho
import Verif.Props.RsaTwice
import Verif.Props.LifeJ
import Verif.Props.BufferEnd
import Verif.Props.IntOwn
import Verif.Audit
