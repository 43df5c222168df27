import Verif.Model.Interface

/-! # Who speaks to whom, and the texts they exchange

The texts are written out here, independently of the types of messages and of the writer. -/

namespace Hpl.Spec

open Interface

/-- The contracts that serve as hooks. -/
def hookContracts : List Contract := [.aggregateHook, .feeHook, .merkleHook, .pausableHook, .routingHook, .customHook,
  .fallbackHook, .igp]

/-- The contracts that serve as security modules. -/
def ismContracts : List Contract := [.aggregateIsm, .multisigIsm, .pausableIsm, .routingIsm]

/-- The contracts that receive messages. -/
def recipientContracts : List Contract := [.warpNative, .warpCw20]

/-- The contracts that serve as gas oracles. -/
def oracleContracts : List Contract := [.oracle, .igp]

/-- To whom an execute message may be addressed. -/
def addressees : Payload → List Contract
  | .postDispatch .. => hookContracts
  | .handle .. => recipientContracts
  | .dispatch _ => [.mailbox]
  | .cw20Mint .. | .cw20Burn _ | .cw20Transfer .. | .cw20TransferFrom .. => [.cw20]

/-- Of whom a query may be made. -/
def asked : Request → List Contract
  | .quoteDispatch .. => hookContracts
  | .interchainSecurityModule => recipientContracts
  | .verify .. | .verifyInfo _ => ismContracts
  | .latestDispatchId | .localDomain => [.mailbox]
  | .exchangeRate _ => oracleContracts

/-- Which answer belongs to which query. -/
def answers : Request → Reply → Prop
  | .quoteDispatch .., .fees _ => True
  | .interchainSecurityModule, .ism _ => True
  | .verify .., .verified _ => True
  | .latestDispatchId, .messageId _ => True
  | .localDomain, .localDomain _ => True
  | .exchangeRate _, .rate .. => True
  | _, _ => False

/-- Amounts are 128-bit numbers. -/
def payloadFits : Payload → Prop
  | .cw20Mint _ n | .cw20Burn n | .cw20Transfer _ n | .cw20TransferFrom _ _ n => n < 2 ^ 128
  | _ => True

/-- Amounts, prices and rates are 128-bit numbers. -/
def replyFits : Reply → Prop
  | .fees l => ∀ c ∈ l, c.amount < 2 ^ 128
  | .rate g e => g < 2 ^ 128 ∧ e < 2 ^ 128
  | _ => True

/-! ## Texts -/

/-- No character that must be escaped. -/
def Plain (s : String) : Prop := ∀ c ∈ s.toList, 32 ≤ c.toNat ∧ c ≠ '"' ∧ c ≠ '\\'

/-- The names in the message are plain. -/
def payloadPlain : Payload → Prop
  | .dispatch m => ∀ a, m.hook = some a → Plain a
  | .cw20Mint a _ | .cw20Transfer a _ => Plain a
  | .cw20TransferFrom a b _ => Plain a ∧ Plain b
  | _ => True

/-- The names in the answer are plain. -/
def replyPlain : Reply → Prop
  | .fees l => ∀ c ∈ l, Plain c.denom
  | .ism a => ∀ x, a = some x → Plain x
  | _ => True

/-- Two digits a byte, high one first. -/
def hexText (b : Bytes) : String :=
  String.ofList (b.flatMap (fun x => ["0123456789abcdef".toList[x.toNat / 16]!, "0123456789abcdef".toList[x.toNat % 16]!]))

/-- In quotes. -/
def quoted (s : String) : String := "\"" ++ s ++ "\""

/-- Either in quotes or `null`. -/
def quotedOr (s : Option String) : String :=
  match s with
  | none => "null"
  | some s => quoted s

/-- The text of a `PostDispatchMsg`. -/
def postDispatchText (metadata message : Bytes) : String :=
  "{\"post_dispatch\":{\"metadata\":" ++ quoted (hexText metadata) ++ ",\"message\":" ++ quoted (hexText message) ++ "}}"

/-- The text of a `HandleMsg`. -/
def handleText (origin : UInt32) (sender body : Bytes) : String :=
  "{\"handle\":{\"origin\":" ++ toString origin.toNat ++ ",\"sender\":" ++ quoted (hexText sender) ++ ",\"body\":" ++
    quoted (hexText body) ++ "}}"

/-- The text of a `DispatchMsg`. -/
def dispatchText (m : DispatchMsg) : String :=
  "{\"dispatch\":{\"dest_domain\":" ++ toString m.dest.toNat ++ ",\"recipient_addr\":" ++ quoted (hexText m.recipient) ++
    ",\"msg_body\":" ++ quoted (hexText m.body) ++ ",\"hook\":" ++ quotedOr m.hook ++ ",\"metadata\":" ++
    quotedOr (m.metadata.map hexText) ++ "}}"

/-- The texts of messages to a token contract. -/
def mintText (a : String) (n : Nat) : String :=
  "{\"mint\":{\"recipient\":" ++ quoted a ++ ",\"amount\":" ++ quoted (toString n) ++ "}}"

def burnText (n : Nat) : String := "{\"burn\":{\"amount\":" ++ quoted (toString n) ++ "}}"

def transferText (a : String) (n : Nat) : String :=
  "{\"transfer\":{\"recipient\":" ++ quoted a ++ ",\"amount\":" ++ quoted (toString n) ++ "}}"

def transferFromText (a b : String) (n : Nat) : String :=
  "{\"transfer_from\":{\"owner\":" ++ quoted a ++ ",\"recipient\":" ++ quoted b ++ ",\"amount\":" ++
    quoted (toString n) ++ "}}"

/-- The text of an execute message. -/
def payloadText : Payload → String
  | .postDispatch metadata message => postDispatchText metadata message
  | .handle origin sender body => handleText origin sender body
  | .dispatch m => dispatchText m
  | .cw20Mint a n => mintText a n
  | .cw20Burn n => burnText n
  | .cw20Transfer a n => transferText a n
  | .cw20TransferFrom a b n => transferFromText a b n

/-- The text of a `QuoteDispatchMsg`. -/
def quoteDispatchText (metadata message : Bytes) : String :=
  "{\"hook\":{\"quote_dispatch\":{\"metadata\":" ++ quoted (hexText metadata) ++ ",\"message\":" ++
    quoted (hexText message) ++ "}}}"

def ismSpecifierText : String := "{\"ism_specifier\":{\"interchain_security_module\":[]}}"

def verifyText (metadata message : Bytes) : String :=
  "{\"ism\":{\"verify\":{\"metadata\":" ++ quoted (hexText metadata) ++ ",\"message\":" ++ quoted (hexText message) ++
    "}}}"

def verifyInfoText (message : Bytes) : String :=
  "{\"ism\":{\"verify_info\":{\"message\":" ++ quoted (hexText message) ++ "}}}"

def latestDispatchIdText : String := "{\"mailbox\":{\"latest_dispatch_id\":{}}}"

def localDomainText : String := "{\"mailbox\":{\"local_domain\":{}}}"

def exchangeRateText (d : UInt32) : String :=
  "{\"oracle\":{\"get_exchange_rate_and_gas_price\":{\"dest_domain\":" ++ toString d.toNat ++ "}}}"

/-- The text of a query. -/
def requestText : Request → String
  | .quoteDispatch metadata message => quoteDispatchText metadata message
  | .interchainSecurityModule => ismSpecifierText
  | .verify metadata message => verifyText metadata message
  | .verifyInfo message => verifyInfoText message
  | .latestDispatchId => latestDispatchIdText
  | .localDomain => localDomainText
  | .exchangeRate d => exchangeRateText d

/-- With commas between. -/
def commas : List String → String
  | [] => ""
  | [s] => s
  | s :: t => s ++ "," ++ commas t

/-- One coin. -/
def coinText (c : Coin) : String :=
  "{\"denom\":" ++ quoted c.denom ++ ",\"amount\":" ++ quoted (toString c.amount) ++ "}"

/-- The text of a `QuoteDispatchResponse`. -/
def feesText (l : List Coin) : String := "{\"fees\":[" ++ commas (l.map coinText) ++ "]}"

def ismText (a : Option Addr) : String := "{\"ism\":" ++ quotedOr a ++ "}"

def verifiedText (b : Bool) : String := "{\"verified\":" ++ toString b ++ "}"

def messageIdText (b : Bytes) : String := "{\"message_id\":" ++ quoted (hexText b) ++ "}"

def domainText (d : UInt32) : String := "{\"local_domain\":" ++ toString d.toNat ++ "}"

def rateText (g e : Nat) : String :=
  "{\"gas_price\":" ++ quoted (toString g) ++ ",\"exchange_rate\":" ++ quoted (toString e) ++ "}"

/-- The text of an answer. -/
def replyText : Reply → String
  | .fees l => feesText l
  | .ism a => ismText a
  | .verified b => verifiedText b
  | .messageId b => messageIdText b
  | .localDomain d => domainText d
  | .rate g e => rateText g e

end Hpl.Spec
