import Verif.Props.Interface

/-! # Real texts

Queries and answers of deployed contracts, recorded in `/repo/tests/neutron-migration/results`, read by the model. Each
is read and written again; the second text has no white space. -/

namespace Hpl.Examples

open Interface Schema

/-- A text, read with a type and written again. -/
def again (t : Ty) (s : String) : Option Bytes := (receive t (Proto.utf8 s)).bind (send t)

/-- compare-results.json 18 -/
example : again (queryTy .mailbox) "{\"mailbox\":{\"hrp\":{}}}" = some (Proto.utf8 "{\"mailbox\":{\"hrp\":{}}}") := by
  decide +kernel

/-- compare-results.json 392 -/
example : again (queryTy .warpNative) "{\"ism_specifier\":{\"interchain_security_module\":[]}}" =
    some (Proto.utf8 "{\"ism_specifier\":{\"interchain_security_module\":[]}}") := by decide +kernel

/-- compare-results.json 302 -/
example : again (queryTy .igp) "{\"igp\":{\"quote_gas_payment\":{\"dest_domain\":169,\"gas_amount\":\"300000\"}}}" =
    some (Proto.utf8 "{\"igp\":{\"quote_gas_payment\":{\"dest_domain\":169,\"gas_amount\":\"300000\"}}}") := by
  decide +kernel

/-- snapshot-new.json 646: white space, numbers in strings -/
example : again exchangeRateResponse
      "{\n          \"gas_price\": \"100000000\",\n          \"exchange_rate\": \"9\"\n        }" =
    some (Proto.utf8 "{\"gas_price\":\"100000000\",\"exchange_rate\":\"9\"}") := by decide +kernel

/-- snapshot-new.json 844: an optional field that is absent -/
example : again connMailboxResponse "{ \"mailbox\": null }" = some (Proto.utf8 "{\"mailbox\":null}") := by decide +kernel

/-- Fields in another order are accepted, unknown ones and missing ones are not. -/
example : again exchangeRateResponse "{\"exchange_rate\":\"9\",\"gas_price\":\"7\"}" =
    some (Proto.utf8 "{\"gas_price\":\"7\",\"exchange_rate\":\"9\"}") ∧
    again exchangeRateResponse "{\"gas_price\":\"7\",\"exchange_rate\":\"9\",\"x\":1}" = none ∧
    again exchangeRateResponse "{\"gas_price\":\"7\"}" = none := by decide +kernel

/-- Texts with escapes: a quoted denom in an answer. -/
example : again quoteDispatchResponse "{\"fees\":[{\"denom\":\"a\\\"\\u0041\",\"amount\":\"7\"}]}" =
    some (Proto.utf8 "{\"fees\":[{\"denom\":\"a\\\"A\",\"amount\":\"7\"}]}") := by decide +kernel

/-- A post dispatch message as the mailbox sends it. -/
example : Spec.payloadText (.postDispatch [1, 0xab] []) = "{\"post_dispatch\":{\"metadata\":\"01ab\",\"message\":\"\"}}" := by
  decide +kernel

end Hpl.Examples
