import Verif.Model.Values
import Verif.Model.Company
/-!
What a Python program can call (`esl/python_module_esl.cpp`): the functions, methods, constructors and assignments to attributes that the module defines, by the C++ types of their arguments and results.

`boost::python` is modelled by what it does with these types: an argument is accepted if it is an object of a class for the type of the argument, of a class that names this type as a base, or of a class from which a conversion is
registered; and the result is given to the program if a class is defined for its type. Otherwise there is an exception. What the C++ functions do, and which of them refuse some values, is not modelled here.
-/
namespace Esl.Calls

/-- A function with the types of its arguments, the object itself first for a method. "plain" are numbers, texts, enumerations that the module defines, lists, dictionaries and other Python objects, and `None`. -/
structure Function where
  name : String
  arguments : List String
  result : String
deriving DecidableEq, Repr

/-- `python_module_esl.cpp:1536-3140`, in the order of the module, and then the assignments to attributes. Numbers that are not in range, comparisons with objects of other classes, which Python decides itself, and the items of
containers of pointers (`inbox_t`, `outbox_t`, `parameter_values`, and reading from `messages_t`) are left out. Several names of one function are listed once. A null pointer that a function returns is `None`. -/
def functions : List Function :=
  [ ⟨"seed(list)", ["plain"], "std::seed_seq"⟩, -- 1545
    ⟨"seed.generate", ["std::seed_seq"], "plain"⟩, -- 1549
    ⟨"seed.__str__", ["std::seed_seq"], "plain"⟩, -- 1556
    ⟨"exception(str)", ["plain"], "exception"⟩, -- 1573
    ⟨"exception.message", ["exception"], "plain"⟩, -- 1574
    ⟨"quantity()", [], "quantity"⟩, -- 1578
    ⟨"quantity(int)", ["plain"], "quantity"⟩, -- 1579
    ⟨"quantity.__iadd__", ["quantity", "quantity"], "quantity"⟩, ⟨"quantity.__add__", ["quantity", "quantity"], "quantity"⟩, ⟨"quantity.__isub__", ["quantity", "quantity"], "quantity"⟩, ⟨"quantity.__sub__", ["quantity", "quantity"], "quantity"⟩, ⟨"quantity.__mul__", ["quantity", "quantity"], "quantity"⟩, -- 1580-1585
    ⟨"quantity.__lt__", ["quantity", "quantity"], "plain"⟩, ⟨"quantity.__gt__", ["quantity", "quantity"], "plain"⟩, ⟨"quantity.__eq__", ["quantity", "quantity"], "plain"⟩, ⟨"quantity.__ne__", ["quantity", "quantity"], "plain"⟩, ⟨"quantity.__le__", ["quantity", "quantity"], "plain"⟩, ⟨"quantity.__ge__", ["quantity", "quantity"], "plain"⟩, -- 1587-1592
    ⟨"quantity.__float__", ["quantity"], "plain"⟩, -- 1598
    ⟨"quantity.__str__", ["quantity"], "plain"⟩, -- 1599-1600
    ⟨"quantity.__imul__(int)", ["quantity", "plain"], "quantity"⟩, -- 1601
    ⟨"quantity.__mul__(int)", ["quantity", "plain"], "quantity"⟩, -- 1602
    ⟨"quantity.__truediv__(int)", ["quantity", "plain"], "vector<quantity>"⟩, -- 1603
    ⟨"agent(identity)", ["python_identity"], "python_agent"⟩, -- 1610
    ⟨"agent.describe", ["python_agent"], "plain"⟩, -- 1612
    ⟨"agent.act", ["python_agent", "time_interval", "std::seed_seq"], "plain"⟩, -- 1613
    ⟨"agent.create", ["python_agent"], "python_identity"⟩, -- 1626
    ⟨"version", [], "plain"⟩, -- 1633
    ⟨"block()", [], "block<object>"⟩, -- 1641
    ⟨"environment()", [], "python_environment"⟩, -- 1649
    ⟨"environment.step", ["python_environment", "python_model"], "plain"⟩, ⟨"environment.run", ["python_environment", "python_model"], "plain"⟩, ⟨"environment.after_step", ["python_environment", "python_model"], "plain"⟩, ⟨"environment.after_run", ["python_environment", "python_model"], "plain"⟩, ⟨"environment.send_messages", ["python_environment", "python_model"], "plain"⟩, -- 1651-1660
    ⟨"environment.activate", ["python_environment"], "plain"⟩, ⟨"environment.deactivate", ["python_environment"], "plain"⟩, ⟨"environment.before_step", ["python_environment"], "plain"⟩, -- 1653-1655
    ⟨"environment.activate_agent", ["python_environment", "identity<agent>"], "plain"⟩, ⟨"environment.deactivate_agent", ["python_environment", "identity<agent>"], "plain"⟩, -- 1658-1659
    ⟨"agent_timing()", [], "agent_timing"⟩, ⟨"activation()", [], "activation"⟩, ⟨"migration()", [], "migration"⟩, ⟨"deactivation()", [], "deactivation"⟩, -- 1664-1686
    ⟨"log_detailed", ["plain", "plain", "plain", "plain", "plain"], "plain"⟩, -- 1722
    ⟨"iso_4217()", [], "iso_4217"⟩, -- 1741
    ⟨"map_share_class_uint64_t()", [], "map<share_class, uint64_t>"⟩, -- 1747
    ⟨"map_share_class_uint64_t.__setitem__", ["map<share_class, uint64_t>", "share_class", "plain"], "plain"⟩, ⟨"map_share_class_uint64_t.__getitem__", ["map<share_class, uint64_t>", "share_class"], "plain"⟩, -- 1748
    ⟨"organization(identity, jurisdiction)", ["python_identity", "jurisdiction"], "python_organization"⟩, -- 1757
    ⟨"company(identity, jurisdiction)", ["python_identity", "jurisdiction"], "python_company"⟩, -- 1763
    ⟨"company.unique_shareholders", ["python_company"], "plain"⟩, -- 1767
    ⟨"company.total_shares", ["python_company"], "plain"⟩, -- 1775
    ⟨"map_property_identifier_quote()", [], "map<identity<property>, quote>"⟩, -- 1789
    ⟨"map_property_identifier_quote.__setitem__", ["map<identity<property>, quote>", "identity<property>", "quote"], "plain"⟩, ⟨"map_property_identifier_quote.__getitem__", ["map<identity<property>, quote>", "identity<property>"], "quote"⟩, -- 1790
    ⟨"standard(iso_4217)", ["iso_4217"], "standard"⟩, -- 1795
    ⟨"standard.value(money, quantity)", ["standard", "money", "quantity"], "price"⟩, ⟨"standard.value(cash, quantity)", ["standard", "cash", "quantity"], "price"⟩, ⟨"standard.value(stock, quantity)", ["standard", "stock", "quantity"], "price"⟩, ⟨"standard.value(loan, quantity)", ["standard", "loan", "quantity"], "price"⟩, ⟨"standard.value(securities_lending_contract, quantity)", ["standard", "securities_lending_contract", "quantity"], "price"⟩, -- 1798-1802, 638-661
    ⟨"price(int, iso_4217)", ["plain", "iso_4217"], "price"⟩, -- 1990
    ⟨"price.approximate", ["plain", "iso_4217"], "price"⟩, -- 1993
    ⟨"price.__lt__", ["price", "price"], "plain"⟩, ⟨"price.__gt__", ["price", "price"], "plain"⟩, ⟨"price.__eq__", ["price", "price"], "plain"⟩, ⟨"price.__ne__", ["price", "price"], "plain"⟩, ⟨"price.__le__", ["price", "price"], "plain"⟩, ⟨"price.__ge__", ["price", "price"], "plain"⟩, -- 1994-1999
    ⟨"price.__str__", ["price"], "plain"⟩, -- 2001-2002
    ⟨"price.__float__", ["price"], "plain"⟩, -- 2003
    ⟨"iso_6166(iso_3166_1_alpha_2, str)", ["iso_3166_1_alpha_2", "plain"], "isin"⟩, -- 2012
    ⟨"iso_6166(str)", ["plain"], "isin"⟩, -- 2013
    ⟨"iso_6166(str, str)", ["plain", "plain"], "isin"⟩, -- 2014
    ⟨"iso_6166(iso_3166_1_alpha_2, cusip)", ["iso_3166_1_alpha_2", "cusip"], "isin"⟩, -- 2015
    ⟨"iso_6166.__str__", ["isin"], "plain"⟩, -- 2019-2020
    ⟨"iso_6166.checksum", ["isin"], "plain"⟩, -- 2021
    ⟨"cusip(str)", ["plain"], "cusip"⟩, -- 2026
    ⟨"cusip.__str__", ["cusip"], "plain"⟩, -- 2032-2033
    ⟨"cusip.checksum", ["cusip"], "plain"⟩, -- 2034
    ⟨"share_class(int, int, float, bool, bool, bool)", ["plain", "plain", "plain", "plain", "plain", "plain"], "share_class"⟩, -- 2040
    ⟨"share_class.__eq__", ["share_class", "share_class"], "plain"⟩, ⟨"share_class.__lt__", ["share_class", "share_class"], "plain"⟩, -- 2047-2048
    ⟨"map_share_class_uint64_t_price()", [], "map<share_class, tuple<uint64_t, price>>"⟩, -- 2050
    ⟨"map_share_class_uint64_t_price.__setitem__", ["map<share_class, tuple<uint64_t, price>>", "share_class", "tuple<uint64_t, price>"], "plain"⟩, ⟨"map_share_class_uint64_t_price.__getitem__", ["map<share_class, tuple<uint64_t, price>>", "share_class"], "tuple<uint64_t, price>"⟩, -- 2051
    ⟨"dividend_policy(...)", ["plain", "plain", "time_interval", "plain", "iso_4217", "map<share_class, tuple<uint64_t, price>>"], "dividend_policy"⟩, -- 2054
    ⟨"dividend_policy.total_dividends", ["dividend_policy"], "price"⟩, -- 2062
    ⟨"iso_10383(str)", ["plain"], "iso_10383"⟩, -- 2073
    ⟨"iso_10383.__str__", ["iso_10383"], "plain"⟩, -- 2074-2075
    ⟨"iso_10383.__lt__", ["iso_10383", "iso_10383"], "plain"⟩, ⟨"iso_10383.__gt__", ["iso_10383", "iso_10383"], "plain"⟩, ⟨"iso_10383.__eq__", ["iso_10383", "iso_10383"], "plain"⟩, ⟨"iso_10383.__ne__", ["iso_10383", "iso_10383"], "plain"⟩, ⟨"iso_10383.__le__", ["iso_10383", "iso_10383"], "plain"⟩, ⟨"iso_10383.__ge__", ["iso_10383", "iso_10383"], "plain"⟩, -- 2076-2081
    ⟨"quote(price)", ["price"], "quote"⟩, -- 2084
    ⟨"quote(exchange_rate)", ["exchange_rate"], "quote"⟩, -- 2085
    ⟨"quote.__lt__", ["quote", "quote"], "plain"⟩, ⟨"quote.__gt__", ["quote", "quote"], "plain"⟩, ⟨"quote.__eq__", ["quote", "quote"], "plain"⟩, ⟨"quote.__ne__", ["quote", "quote"], "plain"⟩, ⟨"quote.__le__", ["quote", "quote"], "plain"⟩, ⟨"quote.__ge__", ["quote", "quote"], "plain"⟩, -- 2088-2093
    ⟨"quote.__float__", ["quote"], "plain"⟩, -- 2094
    ⟨"quote.__str__", ["quote"], "plain"⟩, -- 2095-2096
    ⟨"ticker(identity, identity)", ["python_identity", "python_identity"], "ticker"⟩, -- 2102
    ⟨"ticker.__lt__", ["ticker", "ticker"], "plain"⟩, ⟨"ticker.__gt__", ["ticker", "ticker"], "plain"⟩, ⟨"ticker.__eq__", ["ticker", "ticker"], "plain"⟩, ⟨"ticker.__ne__", ["ticker", "ticker"], "plain"⟩, ⟨"ticker.__le__", ["ticker", "ticker"], "plain"⟩, ⟨"ticker.__ge__", ["ticker", "ticker"], "plain"⟩, -- 2111-2116
    ⟨"centralized_exchange(identity)", ["python_identity"], "centralized_exchange"⟩, -- 2129
    ⟨"position_report(int, int, int)", ["plain", "plain", "plain"], "position_report"⟩, -- 2133
    ⟨"position_report.liquidity_provided", ["position_report"], "plain"⟩, -- 2137
    ⟨"position_report.liquidity_taken", ["position_report"], "plain"⟩, -- 2138
    ⟨"logon_message()", [], "logon_message"⟩, ⟨"logout_message()", [], "logout_message"⟩, ⟨"market_data_request_message()", [], "market_data_request_message"⟩, ⟨"order_status_request()", [], "order_status_request"⟩, ⟨"order_status_response_message()", [], "order_status_response_message"⟩, ⟨"new_order_single()", [], "new_order_single"⟩, ⟨"execution_report_message()", [], "execution_report_message"⟩, -- 2143-2181
    ⟨"execution_reports()", [], "vector<execution_report>"⟩, -- 2202
    ⟨"execution_reports.append", ["vector<execution_report>", "execution_report"], "plain"⟩, ⟨"execution_reports.__getitem__", ["vector<execution_report>", "plain"], "execution_report"⟩, -- 2203
    ⟨"execution_reports.clear", ["vector<execution_report>"], "plain"⟩, -- 2204
    ⟨"execution_report(...)", ["plain", "plain", "plain", "plain", "quote", "python_identity"], "execution_report"⟩, -- 2214
    ⟨"execution_report.__str__", ["execution_report"], "plain"⟩, -- 2231-2232
    ⟨"order_identifier_list()", [], "vector<order_identifier>"⟩, -- 2235
    ⟨"order_identifier_list.append", ["vector<order_identifier>", "plain"], "plain"⟩, ⟨"order_identifier_list.__getitem__", ["vector<order_identifier>", "plain"], "plain"⟩, -- 2236
    ⟨"order_identifier_list.clear", ["vector<order_identifier>"], "plain"⟩, -- 2237
    ⟨"limit_order(...)", ["ticker", "python_identity", "plain", "quote", "plain", "plain"], "limit_order"⟩, -- 2257
    ⟨"limit_orders()", [], "vector<limit_order>"⟩, -- 2268
    ⟨"limit_orders.append", ["vector<limit_order>", "limit_order"], "plain"⟩, ⟨"limit_orders.__getitem__", ["vector<limit_order>", "plain"], "limit_order"⟩, -- 2269
    ⟨"basic_book.ask", ["basic_book"], "plain"⟩, ⟨"basic_book.bid", ["basic_book"], "plain"⟩, ⟨"basic_book.orders", ["basic_book"], "plain"⟩, ⟨"basic_book.display", ["basic_book"], "plain"⟩, -- 2277-2288
    ⟨"basic_book.insert", ["basic_book", "limit_order"], "plain"⟩, -- 2279
    ⟨"basic_book.cancel", ["basic_book", "plain"], "plain"⟩, -- 2280
    ⟨"static_order_book(quote, quote, int)", ["quote", "quote", "plain"], "static_order_book"⟩, -- 2294
    ⟨"binary_tree_order_book()", [], "binary_tree_order_book"⟩, -- 2299
    ⟨"binary_tree_order_book.ask", ["binary_tree_order_book"], "optional<quote>"⟩, ⟨"binary_tree_order_book.bid", ["binary_tree_order_book"], "optional<quote>"⟩, -- 2301-2302
    ⟨"binary_tree_order_book.insert", ["binary_tree_order_book", "limit_order"], "plain"⟩, -- 2303
    ⟨"binary_tree_order_book.cancel", ["binary_tree_order_book", "plain"], "plain"⟩, -- 2304
    ⟨"binary_tree_order_book.display", ["binary_tree_order_book"], "plain"⟩, -- 2305
    ⟨"matching_engine()", [], "matching_engine"⟩, -- 2307
    ⟨"differentiable_order_message(...)", ["python_identity", "python_identity", "plain", "plain"], "python_differentiable_order_message"⟩, -- 2333
    ⟨"messages_t()", [], "messages_t"⟩, -- 2342
    ⟨"messages_t.append", ["messages_t", "python_differentiable_order_message"], "plain"⟩, -- 2343
    ⟨"excess_demand_model(dict)", ["plain"], "python_excess_demand_model"⟩, -- 2347
    ⟨"excess_demand_model.compute_clearing_quotes", ["python_excess_demand_model"], "plain"⟩, -- 2353
    ⟨"iso_3166_1_alpha_2(str)", ["plain"], "iso_3166_1_alpha_2"⟩, -- 2368
    ⟨"iso_3166_1_alpha_2.__str__", ["iso_3166_1_alpha_2"], "plain"⟩, -- 2370-2373
    ⟨"make_callback_handle", ["plain"], "callback_handle"⟩, -- 2636
    ⟨"callback_handle()", [], "callback_handle"⟩, -- 2638
    ⟨"callback_t()", [], "callback_t"⟩, -- 2640
    ⟨"inbox_t()", [], "inbox_t"⟩, -- 2654
    ⟨"outbox_t()", [], "outbox_t"⟩, -- 2662
    ⟨"communicator()", [], "communicator"⟩, -- 2666
    ⟨"communicator.send_message", ["communicator", "plain"], "plain"⟩, -- 2667
    ⟨"header(code, identity, identity, time, time)", ["plain", "python_identity", "python_identity", "plain", "plain"], "header"⟩, -- 2673
    ⟨"header(code, identity, identity, time)", ["plain", "python_identity", "python_identity", "plain"], "header"⟩, -- 2675
    ⟨"header(code, identity, identity)", ["plain", "python_identity", "python_identity"], "header"⟩, -- 2677
    ⟨"header(code, identity)", ["plain", "python_identity"], "header"⟩, -- 2678
    ⟨"header(code)", ["plain"], "header"⟩, -- 2679
    ⟨"message()", [], "python_message"⟩, -- 2696
    ⟨"iso_17442(str)", ["plain"], "iso_17442"⟩, -- 2706
    ⟨"iso_17442.checksum", ["iso_17442"], "plain"⟩, -- 2709
    ⟨"legal_entity()", [], "legal_entity"⟩, -- 2712
    ⟨"jurisdiction(iso_3166_1_alpha_2, iso_4217)", ["iso_3166_1_alpha_2", "iso_4217"], "jurisdiction"⟩, -- 2715
    ⟨"property_identity()", [], "identity<property>"⟩, -- 2724
    ⟨"property_identity(list)", ["plain"], "identity<property>"⟩, -- 2725
    ⟨"property_identity.__str__", ["identity<property>"], "plain"⟩, -- 2727-2728
    ⟨"property_identity.__lt__", ["identity<property>", "identity<property>"], "plain"⟩, ⟨"property_identity.__gt__", ["identity<property>", "identity<property>"], "plain"⟩, ⟨"property_identity.__eq__", ["identity<property>", "identity<property>"], "plain"⟩, ⟨"property_identity.__ne__", ["identity<property>", "identity<property>"], "plain"⟩, ⟨"property_identity.__le__", ["identity<property>", "identity<property>"], "plain"⟩, ⟨"property_identity.__ge__", ["identity<property>", "identity<property>"], "plain"⟩, -- 2730-2735
    ⟨"property_identity.__hash__", ["identity<property>"], "plain"⟩, -- 2737
    ⟨"property(identity)", ["python_identity"], "property"⟩, -- 2743
    ⟨"property.name", ["property"], "plain"⟩, -- 2745
    ⟨"natural_person(iso_3166_1_alpha_2)", ["iso_3166_1_alpha_2"], "natural_person"⟩, -- 2753
    ⟨"entity(identity)", ["python_identity"], "entity<object>"⟩, -- 3031
    ⟨"entity.__str__", ["entity<object>"], "plain"⟩, -- 3033
    ⟨"entity.create", ["entity<object>"], "python_identity"⟩, -- 3034
    ⟨"entity.__eq__", ["entity<object>", "entity<object>"], "plain"⟩, ⟨"entity.__ne__", ["entity<object>", "entity<object>"], "plain"⟩, -- 3035-3036
    ⟨"identity()", [], "python_identity"⟩, -- 3039
    ⟨"identity(list)", ["plain"], "python_identity"⟩, -- 3040
    ⟨"identity.__str__", ["python_identity"], "plain"⟩, -- 3042-3045
    ⟨"identity.__lt__", ["python_identity", "python_identity"], "plain"⟩, ⟨"identity.__gt__", ["python_identity", "python_identity"], "plain"⟩, ⟨"identity.__eq__", ["python_identity", "python_identity"], "plain"⟩, ⟨"identity.__ne__", ["python_identity", "python_identity"], "plain"⟩, ⟨"identity.__le__", ["python_identity", "python_identity"], "plain"⟩, ⟨"identity.__ge__", ["python_identity", "python_identity"], "plain"⟩, -- 3046-3051
    ⟨"identity.__hash__", ["python_identity"], "plain"⟩, -- 3052
    ⟨"agent_collection(reference_wrapper<environment>)", ["reference_wrapper<environment>"], "agent_collection"⟩, -- 3055
    ⟨"agent_collection.create_identifier", ["agent_collection", "plain"], "plain"⟩, ⟨"agent_collection.create", ["agent_collection", "plain"], "plain"⟩, -- 3056-3057
    ⟨"agent_collection.activate", ["agent_collection", "python_agent"], "plain"⟩, ⟨"agent_collection.deactivate", ["agent_collection", "python_agent"], "plain"⟩, -- 3058-3059
    ⟨"agent_collection.local_agents", ["agent_collection"], "plain"⟩, -- 3060
    ⟨"model(environment, parametrization)", ["python_environment", "parametrization"], "python_model"⟩, -- 3063
    ⟨"model.initialize", ["python_model"], "plain"⟩, -- 3068
    ⟨"model.step", ["python_model", "time_interval"], "plain"⟩, -- 3069
    ⟨"model.terminate", ["python_model"], "plain"⟩, -- 3070
    ⟨"time_point", ["plain"], "plain"⟩, -- 3075
    ⟨"time_duration", ["plain"], "plain"⟩, -- 3077
    ⟨"time_interval(time, time)", ["plain", "plain"], "time_interval"⟩, -- 3080
    ⟨"time_interval.empty", ["time_interval"], "plain"⟩, ⟨"time_interval.singleton", ["time_interval"], "plain"⟩, ⟨"time_interval.degenerate", ["time_interval"], "plain"⟩, ⟨"time_interval.__str__", ["time_interval"], "plain"⟩, -- 3083-3088
    ⟨"time_interval.contains", ["time_interval", "plain"], "plain"⟩, -- 3086
    ⟨"world()", [], "world"⟩, -- 3091
    ⟨"world.__str__", ["world"], "plain"⟩, -- 3093-3094
    ⟨"world.create", ["world"], "python_identity"⟩, -- 3095
    ⟨"parameter_base()", [], "parameter_base"⟩, -- 3113
    ⟨"constant_double(float)", ["plain"], "constant<double>"⟩, -- 3115
    ⟨"constant_int64(int)", ["plain"], "constant<int64_t>"⟩, -- 3118
    ⟨"constant_uint64(int)", ["plain"], "constant<uint64_t>"⟩, -- 3121
    ⟨"constant_price(price)", ["price"], "constant<price>"⟩, -- 3124
    ⟨"parameter_values()", [], "map<string, shared_ptr<parameter_base>>"⟩, -- 3128
    ⟨"parametrization()", [], "parametrization"⟩, -- 3134
    ⟨"parametrization.__getitem__", ["parametrization", "plain"], "plain"⟩, -- 3135
    ⟨"block.data =", ["block<object>", "plain"], "plain"⟩, -- 1643
    ⟨"block.index =", ["block<object>", "plain"], "plain"⟩, -- 1645
    ⟨"agent_timing.messaging =", ["agent_timing", "milliseconds"], "plain"⟩, -- 1667
    ⟨"agent_timing.acting =", ["agent_timing", "milliseconds"], "plain"⟩, -- 1668
    ⟨"activation.location =", ["activation", "plain"], "plain"⟩, -- 1678
    ⟨"activation.activated =", ["activation", "identity<agent>"], "plain"⟩, -- 1679
    ⟨"migration.source =", ["migration", "plain"], "plain"⟩, -- 1682
    ⟨"migration.target =", ["migration", "plain"], "plain"⟩, -- 1683
    ⟨"migration.migrant =", ["migration", "identity<agent>"], "plain"⟩, -- 1684
    ⟨"deactivation.deactivated =", ["deactivation", "identity<agent>"], "plain"⟩, -- 1687
    ⟨"iso_6166.code =", ["isin", "plain"], "plain"⟩, -- 2018
    ⟨"quote.price =", ["quote", "price"], "plain"⟩, -- 2086
    ⟨"quote.lot =", ["quote", "plain"], "plain"⟩, -- 2087
    ⟨"ticker.base =", ["ticker", "python_identity"], "plain"⟩, -- 2105
    ⟨"ticker.quote =", ["ticker", "python_identity"], "plain"⟩, -- 2109
    ⟨"centralized_exchange.positions =", ["centralized_exchange", "flat_map<ticker, flat_map<identity<agent>, position_report>>"], "plain"⟩, -- 2130
    ⟨"position_report.supply =", ["position_report", "plain"], "plain"⟩, ⟨"position_report.bought =", ["position_report", "plain"], "plain"⟩, ⟨"position_report.sold =", ["position_report", "plain"], "plain"⟩, -- 2134-2136
    ⟨"logon_message.supply =", ["logon_message", "flat_map<ticker, uint64_t>"], "plain"⟩, -- 2144
    ⟨"market_data_request_message.instruments =", ["market_data_request_message", "vector<ticker>"], "plain"⟩, -- 2161
    ⟨"market_data_request_message.type =", ["market_data_request_message", "plain"], "plain"⟩, -- 2162
    ⟨"market_data_request_message.depth =", ["market_data_request_message", "plain"], "plain"⟩, -- 2163
    ⟨"new_order_single.order_details =", ["new_order_single", "limit_order"], "plain"⟩, -- 2176
    ⟨"execution_report_message.report =", ["execution_report_message", "execution_report"], "plain"⟩, -- 2182
    ⟨"execution_report.state =", ["execution_report", "plain"], "plain"⟩, ⟨"execution_report.quantity =", ["execution_report", "plain"], "plain"⟩, ⟨"execution_report.identifier =", ["execution_report", "plain"], "plain"⟩, ⟨"execution_report.side =", ["execution_report", "plain"], "plain"⟩, -- 2222-2225
    ⟨"execution_report.limit =", ["execution_report", "quote"], "plain"⟩, -- 2226
    ⟨"execution_report.owner =", ["execution_report", "python_identity"], "plain"⟩, -- 2229
    ⟨"limit_order.lifetime =", ["limit_order", "plain"], "plain"⟩, ⟨"limit_order.side =", ["limit_order", "plain"], "plain"⟩, ⟨"limit_order.quantity =", ["limit_order", "plain"], "plain"⟩, -- 2258-2265
    ⟨"limit_order.symbol =", ["limit_order", "ticker"], "plain"⟩, -- 2260
    ⟨"limit_order.owner =", ["limit_order", "python_identity"], "plain"⟩, -- 2263
    ⟨"limit_order.limit =", ["limit_order", "quote"], "plain"⟩, -- 2264
    ⟨"basic_book.reports =", ["basic_book", "vector<execution_report>"], "plain"⟩, -- 2276
    ⟨"matching_engine.books =", ["matching_engine", "flat_map<ticker, shared_ptr<basic_book>>"], "plain"⟩, -- 2308
    ⟨"differentiable_order_message.supply =", ["python_differentiable_order_message", "plain"], "plain"⟩, -- 2339
    ⟨"excess_demand_model.circuit_breaker =", ["python_excess_demand_model", "pair<double, double>"], "plain"⟩, -- 2350
    ⟨"excess_demand_model.methods =", ["python_excess_demand_model", "vector<solver>"], "plain"⟩, -- 2351
    ⟨"excess_demand_model.quotes =", ["python_excess_demand_model", "property_map<quote>"], "plain"⟩, -- 2352
    ⟨"excess_demand_model.excess_demand_functions =", ["python_excess_demand_model", "plain"], "plain"⟩, -- 2356
    ⟨"callback_t.function =", ["callback_t", "callback_handle"], "plain"⟩, -- 2641
    ⟨"callback_t.description =", ["callback_t", "plain"], "plain"⟩, ⟨"callback_t.message =", ["callback_t", "plain"], "plain"⟩, ⟨"callback_t.file =", ["callback_t", "plain"], "plain"⟩, ⟨"callback_t.line =", ["callback_t", "plain"], "plain"⟩, -- 2642-2646
    ⟨"communicator.inbox =", ["communicator", "inbox_t"], "plain"⟩, -- 2668
    ⟨"communicator.outbox =", ["communicator", "outbox_t"], "plain"⟩, -- 2669
    ⟨"header.type =", ["header", "plain"], "plain"⟩, ⟨"header.sent =", ["header", "plain"], "plain"⟩, ⟨"header.received =", ["header", "plain"], "plain"⟩, -- 2681-2694
    ⟨"header.sender =", ["header", "python_identity"], "plain"⟩, ⟨"header.recipient =", ["header", "python_identity"], "plain"⟩, -- 2683-2691
    ⟨"model.end =", ["python_model", "plain"], "plain"⟩, ⟨"model.time =", ["python_model", "plain"], "plain"⟩, -- 3065-3066
    ⟨"model.agents =", ["python_model", "agent_collection"], "plain"⟩, -- 3072
    ⟨"time_interval.lower =", ["time_interval", "plain"], "plain"⟩, ⟨"time_interval.upper =", ["time_interval", "plain"], "plain"⟩, -- 3081-3082
    ⟨"parametrization.values =", ["parametrization", "map<string, shared_ptr<parameter_base>>"], "plain"⟩ ] -- 3136

/-- The C++ type of a class of the Python module (`python_module_esl.cpp:1544-3134`), where it has another name. -/
def classes : List (String × String) :=
  [ ("agent", "python_agent"), ("block", "block<object>"), ("company", "python_company"), ("iso_6166", "isin"), ("differentiable_order_message", "python_differentiable_order_message"),
    ("excess_demand_model", "python_excess_demand_model"), ("message", "python_message"), ("entity", "entity<object>"), ("identity", "python_identity"), ("model", "python_model") ]

/-- The C++ type of a class of the Python module. -/
def typeOf (c : String) : String := (classes.lookup c).getD c

/-- Reading an attribute is a call, too: see `Values.attributes`. -/
def reading (a : Values.Attribute) : Function :=
  ⟨a.owner ++ "." ++ a.name, [typeOf a.owner], match a.kind with | .plain => "plain" | .instance t => t⟩

/-- All that a program can call. -/
def available : List Function := functions ++ Values.attributes.map reading

/-- `python_module_esl.cpp:2098` and 3100-3104: the conversions `implicitly_convertible` that can matter here. -/
def implicit : List (String × String) :=
  [ ("quote", "plain"), ("python_identity", "identity<agent>"), ("identity<agent>", "python_identity"), ("python_identity", "identity<property>"), ("identity<property>", "python_identity") ]

/-- All conversions: those, and from a class to its bases. -/
def conversions : List (String × String) := implicit ++ Attributes.eslModule.flatMap fun d => d.bases.map fun b => (d.type, b)

/-- Whether a program with objects of the types `held` can give an argument of the type `t`. -/
def provides (held : List String) (t : String) : Bool := held.contains t || conversions.any fun c => c.2 == t && held.contains c.1

/-- A call with the best arguments that the program has: the types of the objects afterwards, or an exception. `known` are the types for which there are classes. -/
def call (known held : List String) (f : Function) : Outcome (List String) :=
  if f.arguments.all (provides held) then
    if f.result == "plain" then .ok held
    else if known.contains f.result then .ok (if held.contains f.result then held else f.result :: held)
    else .throws
  else .throws

/-- A program that goes on after exceptions. -/
def run (known : List String) (p : List Function) (held : List String) : List String :=
  p.foldl (fun h f => match call known h f with | .ok h' => h' | _ => h) held

/-- What a program starts with: plain values, and the constants of the module for currencies (1811-1988), countries (2377-2626) and jurisdictions (2760-3010). -/
def start : List String := ["plain", "iso_4217", "iso_3166_1_alpha_2", "jurisdiction"]

/-! ## Dividends -/

open Esl.Company (Register ShareClass Money Price)

/-- What a program does with dividends per share: `map_share_class_uint64_t_price` (python_module_esl.cpp:2050-2051) and `dividend_policy` (2053-2062). -/
inductive Statement where
  /-- `m = map_share_class_uint64_t_price()` -/
  | newMap
  /-- `m[s] = (n, p)` -/
  | setItem (m : Nat) (s : ShareClass) (n : Nat) (p : Price)
  /-- `del m[s]` -/
  | deleteItem (m : Nat) (s : ShareClass)
  /-- `d = dividend_policy(..., c, m)`: the dates are left out -/
  | newPolicy (c : Money) (m : Nat)
  /-- `m = d.dividend_per_share` -/
  | readMap (d : Nat)

/-- The maps and the policies that a program has. -/
structure Dividends where
  maps : List (Register (Nat × Price)) := []
  policies : List (Money × Register (Nat × Price)) := []
deriving DecidableEq

/-- The effect of a statement, and whether it raised an exception. Assigning an item, python_module_esl.cpp:217-221, needs a `std::tuple<std::uint64_t, price>`, which a Python object is converted to only if a class is defined for it.
Reading the map of a policy gives a reference in Python, and a copy here; deleting an entry that is not there has no effect (223-227). -/
def Dividends.execute (known : List String) (d : Dividends) : Statement → Dividends × Bool
  | .newMap => ({ d with maps := d.maps ++ [[]] }, false)
  | .setItem m s n p =>
    match d.maps[m]? with
    | some r => if known.contains "tuple<uint64_t, price>" then ({ d with maps := d.maps.set m (r.assign s (n, p)) }, false) else (d, true)
    | none => (d, true)
  | .deleteItem m s =>
    match d.maps[m]? with
    | some r => ({ d with maps := d.maps.set m (r.filter fun e => e.1.lt s || s.lt e.1) }, false)
    | none => (d, true)
  | .newPolicy c m =>
    match d.maps[m]? with
    | some r => ({ d with policies := d.policies ++ [(c, r)] }, false)
    | none => (d, true)
  | .readMap i =>
    match d.policies[i]? with
    | some p => ({ d with maps := d.maps ++ [p.2] }, false)
    | none => (d, true)

/-- A program that goes on after exceptions. -/
def Dividends.run (known : List String) (l : List Statement) : Dividends := l.foldl (fun d s => (d.execute known s).1) {}

end Esl.Calls
